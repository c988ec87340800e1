import Verif.Props.BuilderTidy
import Verif.Props.ScanInfo

/-!
# Where in an entry made from a SPICE file the axes of the plot are
-/

namespace Tavi

open Spec

/-- No groups or datasets below. -/
def NoSub (e : Dict) : Prop := ∀ k, Plain k → e.get? k = none

theorem walk_nosub {e e' : Dict} (h : NoSub e) {q : List Str} (hq : ∀ k ∈ q, Plain k) (hw : walk e q = some e') :
    q = [] ∧ e' = e := by
  cases q with
  | nil => exact ⟨rfl, (Option.some.inj hw).symm⟩
  | cons k q => rw [walk, h k (hq k (by simp))] at hw; exact absurd hw (by simp)

theorem nosub_nxDs (x : Leaf) (a : List (Str × Str)) : NoSub (nxDs x a) := by
  intro k hk
  rw [nxDs, Dict.get?, if_neg (Ne.symm hk.2), Dict.get?, if_neg (Ne.symm hk.1)]; rfl

theorem walk_flat {g e : Dict} {K : List Str} (h : Flat g K) {q : List Str} (hq : ∀ k ∈ q, Plain k) (hw : walk g q = some e) :
    (q = [] ∧ e = g) ∨ NoSub e := by
  cases q with
  | nil => exact .inl ⟨rfl, (Option.some.inj hw).symm⟩
  | cons k q =>
    rw [walk] at hw
    rcases flat_item h (hq k (by simp)) with ⟨hn, _⟩ | ⟨x, a, hx, _⟩
    · rw [hn] at hw; exact absurd hw (by simp)
    · rw [hx] at hw
      obtain ⟨_, rfl⟩ := walk_nosub (nosub_nxDs x a) (fun k hk => hq k (by simp [hk])) hw
      exact .inr (nosub_nxDs x a)

/-- The paths of the groups of datasets. -/
def gpaths : List (List Str) :=
  (instK.take 8).map (fun C => ["instrument".toList, C]) ++ [["monitor".toList], ["sample".toList], ["user".toList]]

theorem walk_append {d e : Dict} {q r : List Str} (h : walk d (q ++ r) = some e) : ∃ e1, walk d q = some e1 ∧ walk e1 r = some e := by
  induction q generalizing d with
  | nil => exact ⟨d, rfl, h⟩
  | cons k q ih =>
    rw [List.cons_append, walk] at h
    split at h
    · rename_i f hf
      obtain ⟨e1, h1, h2⟩ := ih h
      exact ⟨e1, by rw [walk, hf]; exact h1, h2⟩
    · exact absurd h (by simp)

theorem walk_append_some {d e1 e : Dict} {q r : List Str} (h1 : walk d q = some e1) (h2 : walk e1 r = some e) :
    walk d (q ++ r) = some e := by
  induction q generalizing d with
  | nil => obtain rfl := Option.some.inj h1; exact h2
  | cons k q ih =>
    rw [walk] at h1
    rw [List.cons_append, walk]
    split at h1
    · exact ih h1
    · exact absurd h1 (by simp)

section
variable {iso : Str → Py Str} {logs : List (Str × LogVal)} {p : Pieces}

theorem entry_definition (p : Pieces) : ∃ x a, (dropLogs p.entry).get? "definition".toList = some (.dict (nxDs x a)) := by
  apply Exists.intro
  apply Exists.intro
  rw [entry_get _ (by decide) (by decide), Pieces.entry, assemble, get?_set, if_neg (by decide), get?_set,
    if_neg (by decide), get?_set, if_neg (by decide), get?_set, if_neg (by decide), get?_addDataset_ne _ (by decide),
    get?_addDataset_ne _ (by decide), get?_addDataset_ne _ (by decide)]
  rfl

theorem nosub_ds {e : Dict} {x : Leaf} (h : Ds e x) : NoSub e := fun _ hk => ds_no_member h hk

theorem walk_comp {C : Str} {g : Dict} (hC : (C, g) ∈ p.comps) :
    ∃ j < 11, ["instrument".toList, C] = gpaths.getD j [] ∧ g = p.groups.getD j .nil := by
  simp only [Pieces.comps, List.mem_cons, Prod.mk.injEq, List.not_mem_nil, or_false] at hC
  rcases hC with ⟨rfl, rfl⟩ | ⟨rfl, rfl⟩ | ⟨rfl, rfl⟩ | ⟨rfl, rfl⟩ | ⟨rfl, rfl⟩ | ⟨rfl, rfl⟩ | ⟨rfl, rfl⟩ | ⟨rfl, rfl⟩
  · exact ⟨0, by decide, rfl, rfl⟩
  · exact ⟨1, by decide, rfl, rfl⟩
  · exact ⟨2, by decide, rfl, rfl⟩
  · exact ⟨3, by decide, rfl, rfl⟩
  · exact ⟨4, by decide, rfl, rfl⟩
  · exact ⟨5, by decide, rfl, rfl⟩
  · exact ⟨6, by decide, rfl, rfl⟩
  · exact ⟨7, by decide, rfl, rfl⟩

theorem entry_top (p : Pieces) {k : Str} (hk : k ≠ kSpice) (hm : p.entry.get? k ≠ none) : (dropLogs p.entry).get? k = p.entry.get? k := by
  refine entry_get p hk ?_
  rintro rfl
  refine hm ?_
  rw [Pieces.entry, assemble, get?_set, if_neg (by decide), get?_set, if_neg (by decide), get?_set, if_neg (by decide),
    get?_set, if_neg (by decide), get?_addDataset_ne _ (by decide),
    get?_addDataset_ne _ (by decide), get?_addDataset_ne _ (by decide)]
  rfl

/-- What is at the top of an entry. -/
theorem Fine.top_items (h : Fine p) {k : Str} {v : Val} (hm : (k, v) ∈ items (dropLogs p.entry)) :
    k ∈ topK ∧ (k = kAttrs ∨ v = .dict (buildData p.md) ∨ (∃ x a, v = .dict (nxDs x a)) ∨ v = .dict p.inst ∨
      v = .dict p.mon ∨ v = .dict p.samp ∨ v = .dict p.user) := by
  rw [dropLogs, items_erase, items_erase, List.mem_filter, List.mem_filter] at hm
  obtain ⟨⟨hm, h1⟩, h2⟩ := hm
  replace h1 : k ≠ kSpice := by simpa using h1
  rw [Pieces.entry, assemble] at hm
  rcases mem_items_set hm with hm | ⟨rfl, rfl⟩
  swap
  · exact ⟨by decide, by simp⟩
  rcases mem_items_set hm with hm | ⟨rfl, rfl⟩
  swap
  · exact ⟨by decide, by simp⟩
  rcases mem_items_set hm with hm | ⟨rfl, rfl⟩
  swap
  · exact ⟨by decide, by simp⟩
  rcases mem_items_set hm with hm | ⟨rfl, rfl⟩
  swap
  · exact ⟨by decide, by simp⟩
  rcases mem_items_addDataset hm with hm | ⟨rfl, ds, ho, rfl⟩
  swap
  · refine ⟨by decide, .inr (.inr (.inl ?_))⟩
    obtain ⟨⟨x, a, rfl⟩, _⟩ := h.stops _ ho
    exact ⟨x, a, rfl⟩
  rcases mem_items_addDataset hm with hm | ⟨rfl, ds, ho, rfl⟩
  swap
  · refine ⟨by decide, .inr (.inr (.inl ?_))⟩
    obtain ⟨⟨x, a, rfl⟩, _⟩ := h.starts _ ho
    exact ⟨x, a, rfl⟩
  rcases mem_items_addDataset hm with hm | ⟨rfl, ds, ho, rfl⟩
  swap
  · refine ⟨by decide, .inr (.inr (.inl ?_))⟩
    obtain ⟨x, a, rfl⟩ := dsText_some ho
    exact ⟨x, a, rfl⟩
  simp only [Spec.items, List.mem_cons, Prod.mk.injEq, List.not_mem_nil, or_false] at hm
  rcases hm with ⟨rfl, rfl⟩ | ⟨rfl, rfl⟩ | ⟨rfl, rfl⟩ | ⟨rfl, rfl⟩
  · exact ⟨by decide, .inl rfl⟩
  · exact absurd rfl h1
  · exact ⟨by decide, by simp⟩
  · exact ⟨by decide, .inr (.inr (.inl ⟨_, _, rfl⟩))⟩

theorem Fine.top_none (h : Fine p) {k : Str} (hk' : k ∉ topK) : (dropLogs p.entry).get? k = none := by
  cases hg : (dropLogs p.entry).get? k with
  | none => rfl
  | some v => exact absurd (h.top_items (mem_items_of_get? hg)).1 hk'

/-- Every group and dataset that the search sees. -/
theorem Fine.places (h : Fine p) {q : List Str} {e : Dict} (hq : ∀ k ∈ q, Seen k) (hw : walk p.entry q = some e) :
    (q = [] ∧ e = p.entry) ∨ (q = ["instrument".toList] ∧ e = p.inst) ∨
      (∃ j < 11, q = gpaths.getD j [] ∧ e = p.groups.getD j .nil) ∨ NoSub e := by
  cases q with
  | nil => exact .inl ⟨rfl, (Option.some.inj hw).symm⟩
  | cons k q =>
    right
    have hk := hq k (by simp)
    have hq' : ∀ k ∈ q, Plain k := fun k hk => (hq k (by simp [hk])).1
    rw [walk] at hw
    split at hw
    swap
    · exact absurd hw (by simp)
    rename_i f hf
    have hf' : (dropLogs p.entry).get? k = some (.dict f) := (entry_top p hk.2.1 (by rw [hf]; simp)).trans hf
    have htop := (h.top_items (mem_items_of_get? hf')).1
    have hset : ∀ {o : Option Dict}, (dropLogs p.entry).get? k = o.map Val.dict → (∀ ds, o = some ds → ∃ x, Ds ds x) → NoSub e := by
      intro o ho hds
      cases o with
      | none => rw [ho] at hf'; exact absurd hf' (by simp)
      | some ds =>
        rw [ho] at hf'
        obtain rfl : ds = f := by simpa using hf'
        obtain ⟨x, hx⟩ := hds _ rfl
        obtain ⟨_, rfl⟩ := walk_nosub (nosub_ds hx) hq' hw
        exact nosub_ds hx
    simp only [topK, List.mem_cons, List.not_mem_nil, or_false] at htop
    rcases htop with rfl | rfl | rfl | rfl | rfl | rfl | rfl | rfl | rfl | rfl
    · exact absurd rfl hk.1.1
    · exact absurd rfl hk.2.2
    · obtain ⟨x, a, hx⟩ := entry_definition p
      rw [hx] at hf'
      obtain rfl : nxDs x a = f := by simpa using hf'
      obtain ⟨_, rfl⟩ := walk_nosub (nosub_nxDs x a) hq' hw
      exact .inr (.inr (nosub_nxDs x a))
    · exact .inr (.inr (hset (entry_title p) fun ds hd => (dsText_ds (by decide) hd).imp fun _ h => h.1))
    · exact .inr (.inr (hset (entry_start p) fun ds hd => (h.starts _ hd).2.imp fun _ h => h.1))
    · exact .inr (.inr (hset (entry_stop p) fun ds hd => (h.stops _ hd).2.imp fun _ h => h.1))
    · rw [entry_inst] at hf'
      obtain rfl : p.inst = f := by simpa using hf'
      cases q with
      | nil => exact .inl ⟨rfl, (Option.some.inj hw).symm⟩
      | cons C q =>
        rw [walk] at hw
        split at hw
        swap
        · exact absurd hw (by simp)
        rename_i g hg
        rcases inst_items' p (mem_items_of_get? hg) with rfl | ⟨g', e', hC⟩ | ⟨rfl, ds, e', hds⟩
        · exact absurd rfl (hq' kAttrs (by simp)).1
        · obtain rfl : g = g' := by injection e'
          obtain ⟨K, hK⟩ := h.flat_comp hC
          rcases walk_flat hK (fun k hk => hq' k (by simp [hk])) hw with ⟨rfl, rfl⟩ | h'
          · exact .inr (.inl (walk_comp hC))
          · exact .inr (.inr h')
        · obtain rfl : g = ds := by injection e'
          obtain ⟨x, hx, _⟩ := dsText_ds (by decide) hds
          obtain ⟨_, rfl⟩ := walk_nosub (nosub_ds hx) (fun k hk => hq' k (by simp [hk])) hw
          exact .inr (.inr (nosub_ds hx))
    · rw [entry_mon] at hf'
      obtain rfl : p.mon = f := by simpa using hf'
      obtain ⟨K, hK⟩ := h.flat_mon
      rcases walk_flat hK hq' hw with ⟨rfl, rfl⟩ | h'
      · exact .inr (.inl ⟨8, by decide, rfl, rfl⟩)
      · exact .inr (.inr h')
    · rw [entry_samp] at hf'
      obtain rfl : p.samp = f := by simpa using hf'
      obtain ⟨K, hK⟩ := h.flat_samp
      rcases walk_flat hK hq' hw with ⟨rfl, rfl⟩ | h'
      · exact .inr (.inl ⟨9, by decide, rfl, rfl⟩)
      · exact .inr (.inr h')
    · rw [entry_user] at hf'
      obtain rfl : p.user = f := by simpa using hf'
      obtain ⟨K, hK⟩ := h.flat_user
      rcases walk_flat hK hq' hw with ⟨rfl, rfl⟩ | h'
      · exact .inr (.inl ⟨10, by decide, rfl, rfl⟩)
      · exact .inr (.inr h')

theorem group_walk (p : Pieces) {j : ℕ} (hj : j < 11) : walk p.entry (gpaths.getD j []) = some (p.groups.getD j .nil) := by
  have key : ∀ {k : Str} {f : Dict}, k ≠ kSpice → k ≠ kDas → (dropLogs p.entry).get? k = some (.dict f) →
      p.entry.get? k = some (.dict f) := fun h1 h2 h => (entry_get p h1 h2).symm.trans h
  have hinst : ∀ {C : Str} {g : Dict}, (C, g) ∈ p.comps → walk p.entry ["instrument".toList, C] = some g := by
    intro C g hC
    rw [walk, key (by decide) (by decide) (entry_inst p)]
    show walk p.inst [C] = _
    rw [walk, inst_comp p hC]; rfl
  have htop : ∀ {k : Str} {f : Dict}, k ≠ kSpice → k ≠ kDas → (dropLogs p.entry).get? k = some (.dict f) →
      walk p.entry [k] = some f := by
    intro k f h1 h2 h3
    rw [walk, key h1 h2 h3]; rfl
  interval_cases j
  · exact hinst (by simp [Pieces.comps, Pieces.groups])
  · exact hinst (by simp [Pieces.comps, Pieces.groups])
  · exact hinst (by simp [Pieces.comps, Pieces.groups])
  · exact hinst (by simp [Pieces.comps, Pieces.groups])
  · exact hinst (by simp [Pieces.comps, Pieces.groups])
  · exact hinst (by simp [Pieces.comps, Pieces.groups])
  · exact hinst (by simp [Pieces.comps, Pieces.groups])
  · exact hinst (by simp [Pieces.comps, Pieces.groups])
  · exact htop (by decide) (by decide) (entry_mon p)
  · exact htop (by decide) (by decide) (entry_samp p)
  · exact htop (by decide) (by decide) (entry_user p)

/-- A name of one group only. -/
structure Alone (p : Pieces) (i : ℕ) (n : Str) : Prop where
  idx : i < 11
  seen : Seen n
  inst : n ∉ instK
  top : n ∉ topK
  others : ∀ j < 11, j ≠ i → (p.groups.getD j .nil).get? n = none
  slash : '/' ∉ n

/-- The known columns are each in one group. -/
theorem Made.alone (h : Made iso logs p) {c n : Str} {int : Bool} (hc : KnownColumn (Polarised p.md) (nDet logs) c n int)
    (hm : n ≠ "monitor".toList) (hs : n ≠ "sample".toList) (hd : n ≠ "detector".toList) :
    ∃ i, Alone p i n ∧ Sits logs p i c n int := by
  have free : ∀ {i : ℕ}, i < 11 → Free i n → n ≠ kSpice → Alone p i n := by
    intro i hi hf h1
    obtain ⟨hp, h2, h3, h4, h5, h6⟩ := hf
    exact ⟨hi, ⟨hp, h1, fun e => h3 (e ▸ by decide)⟩, h2, h3, h.others_none hp h4 h5, h6⟩
  have num : ∀ {g : ℕ} {q : Str} (i : ℕ), g < 11 → q ∈ numNames →
      (∀ j < 11, j ≠ g → (p.groups.getD j .nil).get? (suffixed q i) = none) → Alone p g (suffixed q i) := by
    intro g q i hg hq ho
    have hs : ∀ q ∈ numNames, '/' ∉ q := by decide
    refine ⟨hg, ⟨numbered_plain hq i, fun e => ?_, fun e => ?_⟩, numbered_not_fixed hq i _ (by decide +kernel),
      numbered_not_fixed hq i _ (by decide +kernel), ho, ?_⟩
    · exact (show NotNumbered "SPICElogs".toList by decide).ne hq i e.symm
    · exact (show NotNumbered "data".toList by decide).ne hq i e.symm
    · rw [suffixed, List.mem_append, List.mem_append]
      rintro ((h | h) | h)
      · exact hs q hq h
      · exact absurd h (by decide)
      · obtain ⟨_, h2, _⟩ := decStr_spec i
        have := List.all_eq_true.1 h2 _ h
        exact absurd this (by decide)
  cases hc with
  | same hc =>
    rw [sameName_eq] at hc
    simp only [List.mem_append] at hc
    rcases hc with (((((hc | hc) | hc) | hc) | hc) | hc)
    · have := (show ∀ c ∈ monoCols, Free 1 c ∧ c ≠ kSpice by decide +kernel) _ hc
      exact ⟨1, free (by decide) this.1 this.2, sits_mono h hc⟩
    · rw [← List.mem_append] at hc
      have := (show ∀ c ∈ anaCols ++ focusNames, Free 3 c ∧ c ≠ kSpice by decide +kernel) _ hc
      exact ⟨3, free (by decide) this.1 this.2, sits_ana h hc⟩
    · have := (show ∀ c ∈ slitNames, Free 5 c ∧ c ≠ kSpice by decide +kernel) _ hc
      exact ⟨5, free (by decide) this.1 this.2, sits_slits h hc⟩
    · have := (show ∀ c ∈ flipperNames, Free 6 c ∧ c ≠ kSpice by decide +kernel) _ hc
      exact ⟨6, free (by decide) this.1 this.2, sits_flip h hc⟩
    · have := (show ∀ c ∈ goniNames, Free 7 c ∧ c ≠ kSpice by decide +kernel) _ hc
      exact ⟨7, free (by decide) this.1 this.2, sits_goni h hc⟩
    · have := (show ∀ c ∈ "q".toList :: (temperatureNames ++ fieldNames), c = "sample".toList ∨ Free 9 c ∧ c ≠ kSpice by
        decide +kernel) _ hc
      have := this.resolve_left hs
      exact ⟨9, free (by decide) this.1 this.2, sits_samp h hc⟩
  | renamed hc =>
    have := (show ∀ cn ∈ Spec.renamed, Free 9 cn.2 ∧ cn.2 ≠ kSpice by decide +kernel) _ hc
    exact ⟨9, free (by decide) this.1 this.2, sits_hkle h hc⟩
  | detector => exact absurd rfl hd
  | point => exact ⟨9, free (by decide) (by decide +kernel) (by decide), sits_pt h⟩
  | time hpol => exact ⟨8, free (by decide) (by decide +kernel) (by decide), sits_time h hpol⟩
  | mcu hpol => exact ⟨8, free (by decide) (by decide +kernel) (by decide), sits_mcu h hpol⟩
  | monitor hpol => exact absurd rfl hm
  | @detectors i h1 hn =>
    rw [← suffixed_eq]
    exact ⟨4, num i (by decide) (by decide) (h.num_det i), sits_dets h h1 hn⟩
  | @times i hpol h1 hn =>
    rw [← suffixed_eq]
    exact ⟨8, num i (by decide) (by decide) (h.num_chan (by decide) i), sits_times h hpol h1 hn⟩
  | @mcus i hpol h1 hn =>
    rw [← suffixed_eq]
    exact ⟨8, num i (by decide) (by decide) (h.num_chan (by decide) i), sits_mcus h hpol h1 hn⟩
  | @monitors i hpol h1 hn =>
    rw [← suffixed_eq]
    exact ⟨8, num i (by decide) (by decide) (h.num_chan (by decide) i), sits_monitors h hpol h1 hn⟩

theorem walk_last {d e : Dict} {q : List Str} {n : Str} (h : walk d (q ++ [n]) = some e) :
    ∃ e1, walk d q = some e1 ∧ e1.get? n = some (.dict e) := by
  obtain ⟨e1, h1, h2⟩ := walk_append h
  refine ⟨e1, h1, ?_⟩
  rw [walk] at h2
  split at h2
  · rename_i f hf
    rw [walk] at h2
    rw [hf, Option.some.inj h2]
  · exact absurd h2 (by simp)

theorem Fine.only (h : Fine p) {i : ℕ} {n : Str} (ha : Alone p i n) {q : List Str} {e : Dict}
    (hq : ∀ k ∈ q ++ [n], Seen k) (hw : walk p.entry (q ++ [n]) = some e) :
    q = gpaths.getD i [] ∧ (p.groups.getD i .nil).get? n = some (.dict e) := by
  obtain ⟨e1, h1, h2⟩ := walk_last hw
  rcases h.places (fun k hk => hq k (by simp [hk])) h1 with ⟨rfl, rfl⟩ | ⟨rfl, rfl⟩ | ⟨j, hj, rfl, rfl⟩ | h'
  · have := h.top_none ha.top
    rw [entry_top p ha.seen.2.1 (by rw [h2]; simp), h2] at this
    exact absurd this (by simp)
  · rcases inst_items' p (mem_items_of_get? h2) with e' | ⟨g', _, hC⟩ | ⟨e', _⟩
    · exact absurd e' ha.seen.1.1
    · have : n ∈ instK.take 8 := List.mem_map_of_mem (f := Prod.fst) hC
      exact absurd (List.mem_of_mem_take this) ha.inst
    · exact absurd (e' ▸ by decide) ha.inst
  · by_cases hij : j = i
    · rw [← hij]; exact ⟨rfl, h2⟩
    · rw [ha.others j hj hij] at h2; exact absurd h2 (by simp)
  · rw [h' n ha.seen.1] at h2; exact absurd h2 (by simp)

theorem Fine.only_det (h : Fine p) (hno : ∀ j < 11, (p.groups.getD j .nil).get? "detector".toList = none) {q : List Str} {e : Dict}
    (hq : ∀ k ∈ q ++ ["detector".toList], Seen k) (hw : walk p.entry (q ++ ["detector".toList]) = some e) :
    q = ["instrument".toList] := by
  obtain ⟨e1, h1, h2⟩ := walk_last hw
  rcases h.places (fun k hk => hq k (by simp [hk])) h1 with ⟨rfl, rfl⟩ | ⟨rfl, rfl⟩ | ⟨j, hj, rfl, rfl⟩ | h'
  · have := h.top_none (k := "detector".toList) (by decide)
    rw [entry_top p (by decide) (by rw [h2]; simp), h2] at this
    exact absurd this (by simp)
  · rfl
  · rw [hno j hj] at h2; exact absurd h2 (by simp)
  · rw [h' _ (by decide)] at h2; exact absurd h2 (by simp)

theorem Made.no_detector (h : Made iso logs p) (j : ℕ) (hj : j < 11) : (p.groups.getD j .nil).get? "detector".toList = none := by
  obtain ⟨K, hf, hK⟩ := h.flats j hj
  refine hf.get_none (fun hk => ?_) (by decide)
  rcases hK _ hk with h' | ⟨q, hq, i, h'⟩
  · exact (show ∀ j ∈ List.range 11, "detector".toList ∉ fixedK.getD j [] by decide +kernel) j (List.mem_range.2 hj) h'
  · exact (show NotNumbered "detector".toList by decide).ne hq i h'

/-! ## The name of the data set does not matter -/

theorem walk_named (d : Dict) (n : Str) {k : Str} (hk : k ≠ kAttrs) (ks : List Str) :
    walk (setDatasetName d n) (k :: ks) = walk d (k :: ks) := by
  rw [walk, walk, get?_setDatasetName d n hk]

theorem view_named (d : Dict) (n : Str) (k : Str) (ks : List Str) :
    view (setDatasetName d n) (k :: ks) = view d (k :: ks) := by
  rw [view, view]
  by_cases hk : k = kAttrs
  · rw [if_pos (.inl hk), if_pos (.inl hk)]
  · rw [get?_setDatasetName d n hk]

theorem onlyAt_named {d : Dict} {val : Str} {q : List Str} (h : OnlyAt d val q) (n : Str) : OnlyAt (setDatasetName d n) val q := by
  have key : ∀ q', (∀ k ∈ q' ++ [val], Seen k) → walk (setDatasetName d n) (q' ++ [val]) = walk d (q' ++ [val]) := by
    intro q' hq
    cases q' with
    | nil => exact walk_named d n (hq val (by simp)).1.1 []
    | cons k q' => exact walk_named d n (hq k (by simp)).1.1 _
  obtain ⟨e, he⟩ := h.there
  exact ⟨⟨e, (key q h.seen).trans he⟩, h.seen, fun q' e hq he => h.only q' e hq ((key q' hq) ▸ he)⟩

theorem axisOf_named {d : Dict} {val : Str} {o : Option (List Str)} (h : AxisOf d val o) (n : Str) : AxisOf (setDatasetName d n) val o := by
  have hv : ∀ {q r : List Str}, r ≠ [] → view (setDatasetName d n) (q ++ r) = view d (q ++ r) := by
    intro q r hr
    cases q with
    | nil =>
      cases r with
      | nil => exact absurd rfl hr
      | cons k r => exact view_named d n k r
    | cons k q => exact view_named d n k _
  have hpl : place val ≠ [] := by
    obtain ⟨r, hr⟩ := place_cons val
    rw [hr]; simp
  cases h with
  | found ho hx => exact .found (onlyAt_named ho n) ((hv hpl).trans hx)
  | nowhere h => exact .nowhere fun q hq => (hv (by simp)).trans (h q hq)
  | gone ho hx => exact .gone (onlyAt_named ho n) ((hv hpl).trans hx)

/-! ## Axes -/

theorem gpaths_seen : ∀ j ∈ List.range 11, ∀ k ∈ gpaths.getD j [], Plain k ∧ k ≠ "SPICElogs".toList ∧ k ≠ "data".toList := by
  decide +kernel

theorem view_nxDs (x : Leaf) (a : List (Str × Str)) : ∃ A, view (nxDs x a) [] = some (some x, A) := ⟨_, rfl⟩

/-- The axis of a plot that sits in one group. -/
theorem Fine.axis (h : Fine p) {c n : Str} {int : Bool} {i : ℕ} (ha : Alone p i n) (hsits : Sits logs p i c n int)
    (hm : n ≠ "monitor".toList) (hd : n ≠ "detector".toList)
    (hget : ∀ qs, colOf logs c = some qs → (nxGet p.entry n false).1 = .ok (some (.leaf (.arr (Spec.shown int qs))))) :
    ∃ o, AxisOf p.entry n o ∧ ∀ q v B key, o = some q → view p.entry q = some (some v, B) → path key false = [n] →
      (nxGet p.entry key false).1 = .ok (some (.leaf v)) := by
  have hplace : place n = [n] := by rw [place, if_neg hd, if_neg hm]
  have hgs : ∀ k ∈ gpaths.getD i [] ++ [n], Seen k := by
    intro k hk
    rcases List.mem_append.1 hk with hk | hk
    · exact gpaths_seen i (List.mem_range.2 ha.idx) k hk
    · rw [List.mem_singleton.1 hk]; exact ha.seen
  cases hq : colOf logs c with
  | none =>
    refine ⟨none, .nowhere fun q hq' => ?_, fun q v B key e => by cases e⟩
    cases hv : view p.entry (q ++ [n]) with
    | none => rfl
    | some z =>
      obtain ⟨e, he⟩ := view_walk hv
      have := (h.only ha hq' he).2
      rw [hsits.none hq] at this
      exact absurd this (by simp)
  | some qs =>
    obtain ⟨a, hx⟩ := hsits.some qs hq
    have hw : walk p.entry (gpaths.getD i [] ++ [n]) = some (nxDs (.arr (Spec.shown int qs)) a) :=
      walk_append_some (group_walk p ha.idx) (by rw [walk, hx]; rfl)
    have hv : view p.entry (gpaths.getD i [] ++ place n) = view (nxDs (.arr (Spec.shown int qs)) a) [] := by
      rw [hplace]; exact walk_view (fun k hk => (hgs k hk).1) hw
    refine ⟨_, .found ⟨⟨_, hw⟩, hgs, fun q' e hq' he => (h.only ha hq' he).1⟩ hv, fun q v B key e hv' hk => ?_⟩
    obtain rfl := Option.some.inj e
    rw [hv] at hv'
    obtain ⟨h1, _⟩ := Prod.mk.inj (Option.some.inj hv')
    obtain rfl : Leaf.arr (Spec.shown int qs) = v := Option.some.inj h1
    obtain ⟨rfl, _⟩ := path_single hk
    exact hget qs hq

/-- The counts of the detector as an axis. -/
theorem Fine.axis_det (h : Fine p) {c : Str} {int : Bool} (hsits : Sits logs p 4 c "data".toList int)
    (hno : ∀ j < 11, (p.groups.getD j .nil).get? "detector".toList = none) :
    ∃ o, AxisOf p.entry "detector".toList o ∧ ∀ q v B key, o = some q → view p.entry q = some (some v, B) →
      path key false = ["detector".toList] → (nxGet p.entry key false).1 = .ok (some (.leaf v)) := by
  have hw : walk p.entry ["instrument".toList, "detector".toList] = some p.det := group_walk p (j := 4) (by decide)
  have ho : OnlyAt p.entry "detector".toList ["instrument".toList] :=
    ⟨⟨_, hw⟩, show ∀ k ∈ ["instrument".toList, "detector".toList], Plain k ∧ k ≠ "SPICElogs".toList ∧ k ≠ "data".toList by decide,
      fun q' e hq' hw' => h.only_det hno hq' hw'⟩
  have hpl : ["instrument".toList] ++ place "detector".toList = ["instrument".toList, "detector".toList, "data".toList] := by decide
  have hv : view p.entry ["instrument".toList, "detector".toList, "data".toList] = view p.det ["data".toList] := by
    rw [view_child (by decide) ((entry_get p (by decide) (by decide)).symm.trans (entry_inst p)),
      view_child (by decide) (inst_comp p (show ("detector".toList, p.det) ∈ p.comps by simp [Pieces.comps]))]
  have hno : ∀ key : Str, path key false ≠ ["detector".toList] := fun key hk => absurd (path_single hk).2 (by decide)
  cases hq : colOf logs c with
  | none =>
    refine ⟨none, .gone ho ?_, fun q v B key e => by cases e⟩
    rw [hpl, hv, view, if_neg (by decide), show p.det.get? "data".toList = none from hsits.none hq]
  | some qs =>
    obtain ⟨a, ha⟩ := hsits.some qs hq
    obtain ⟨A, hA⟩ := view_nxDs (.arr (Spec.shown int qs)) a
    refine ⟨_, .found (v := .arr (Spec.shown int qs)) (A := A) ho ?_, fun q v B key _ _ hk => absurd hk (hno key)⟩
    rw [hpl, hv, view_child (d := p.det) (by decide) ha, hA]

/-- The axis of a plot that is a known column. -/
theorem Made.axis (h : Made iso logs p) {c n : Str} {int : Bool} (hc : KnownColumn (Polarised p.md) (nDet logs) c n int)
    (hm : n ≠ "monitor".toList) (hs : n ≠ "sample".toList) :
    Plain n ∧ ∃ o, AxisOf p.entry n o ∧ ∀ q v B key, o = some q → view p.entry q = some (some v, B) → path key false = [n] →
      (nxGet p.entry key false).1 = .ok (some (.leaf v)) := by
  by_cases hd : n = "detector".toList
  · subst hd
    exact ⟨by decide, h.fine.axis_det (sits_data h) h.no_detector⟩
  · obtain ⟨i, ha, hsits⟩ := h.alone hc hm hs hd
    exact ⟨ha.seen.1, h.fine.axis ha hsits hm hd (h.column hc []).2⟩

end

end Tavi
