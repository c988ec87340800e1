import Verif.Props.Links

/-!
# The default plot of a written entry (C80)

`Spec.AxisOf` says what the name of an axis stands for in an entry, independently of the search of the code.
-/

namespace Tavi

open Spec

namespace Spec

/-- What the name of an axis stands for: a dataset of the entry, or nothing (no group has a member of that name, or it lacks
the part that has the numbers). -/
inductive AxisOf (d : Dict) (val : Str) : Option (List Str) → Prop
  | found {q v A} : OnlyAt d val q → view d (q ++ place val) = some (some v, A) → AxisOf d val (some (q ++ place val))
  | nowhere : (∀ q, (∀ k ∈ q ++ [val], Seen k) → view d (q ++ [val]) = none) → AxisOf d val none
  | gone {q} : OnlyAt d val q → view d (q ++ place val) = none → AxisOf d val none

end Spec

theorem walk_view {d e : Dict} {p : List Str} (hp : ∀ k ∈ p, Plain k) (h : walk d p = some e) : view d p = view e [] := by
  induction p generalizing d with
  | nil => obtain rfl := Option.some.inj h; rfl
  | cons k p ih =>
    rw [walk] at h
    split at h
    · rename_i f hf
      rw [view_child (hp k (by simp)) hf, ih (fun k' hk' => hp k' (by simp [hk'])) h]
    · exact absurd h (by simp)

theorem view_walk {d : Dict} {p : List Str} {z : Option Leaf × (Str → Option Leaf)} (h : view d p = some z) :
    ∃ e, walk d p = some e := by
  induction p generalizing d with
  | nil => exact ⟨d, rfl⟩
  | cons k p ih =>
    rw [view] at h
    split at h
    · exact absurd h (by simp)
    · split at h
      · rename_i f hf
        obtain ⟨e, he⟩ := ih h
        exact ⟨e, by rw [walk, hf]; exact he⟩
      · exact absurd h (by simp)

theorem walk_none {d : Dict} {p : List Str} (hp : ∀ k ∈ p, Plain k) (h : view d p = none) : walk d p = none := by
  cases hw : walk d p with
  | none => rfl
  | some e => rw [walk_view hp hw, view] at h; exact absurd h (by simp)

/-- What a new entry looks like when it is read. -/
theorem view_nodeOf {d : Dict} (hd : Entry d) (p : List Str) : (nodeOf d).view p = view d p := by
  obtain ⟨root', h1, h2⟩ := C43_round_trip d hd "a".toList ⟨by decide, by decide⟩ [] .nil rfl
  rw [toNexus_new (entry_tidy hd) rfl] at h1
  obtain rfl := Except.ok.inj h1
  obtain ⟨n, hn, h⟩ := (stores_iff ⟨by decide, by decide⟩ d).1 h2
  rw [H5s.get?_set, if_pos rfl] at hn
  obtain rfl := Option.some.inj hn
  exact h p

theorem place_plain {val : Str} (h : Plain val) : ∀ k ∈ place val, Plain k := by
  intro k hk
  unfold place at hk
  split at hk
  · rcases List.mem_cons.1 hk with rfl | hk
    · exact h
    · rw [List.mem_singleton.1 hk]; exact plain_data
  · split at hk
    · rcases List.mem_cons.1 hk with rfl | hk
      · exact h
      · rw [List.mem_singleton.1 hk]; exact ⟨by decide, by decide⟩
    · rw [List.mem_singleton.1 hk]; exact h

theorem Spec.OnlyAt.path_plain {d : Dict} {val : Str} {q : List Str} (h : OnlyAt d val q) : ∀ k ∈ q ++ place val, Plain k := by
  intro k hk
  rcases List.mem_append.1 hk with hk | hk
  · exact (h.seen k (by simp [hk])).1
  · exact place_plain (h.seen val (by simp)).1 k hk

theorem place_cons (val : Str) : ∃ r, place val = val :: r := by
  unfold place
  split
  · exact ⟨_, rfl⟩
  · split <;> exact ⟨_, rfl⟩

theorem Spec.OnlyAt.not_data {d : Dict} {val : Str} {q : List Str} (h : OnlyAt d val q) : ¬ [kData] <+: q ++ place val := by
  obtain ⟨r, hr⟩ := place_cons val
  cases q with
  | nil =>
    rw [List.nil_append, hr]
    exact seen_not_data rfl (h.seen val (by simp)).2.2
  | cons k q => exact seen_not_data rfl (h.seen k (by simp)).2.2

theorem isDataset_view {t : H5} {v : Leaf} {A : Str → Option Leaf} (h : t.view [] = some (some v, A)) : t.isDataset = true := by
  cases t with
  | node w a ch =>
    cases w with
    | none => rw [H5.view] at h; exact absurd h (by simp)
    | some w => rfl

theorem view_at_exists {d : Dict} (hd : Tidy d) {p : List Str} (hp : ∀ k ∈ p, Plain k) {z : Option Leaf × (Str → Option Leaf)}
    (h : view d p = some z) : ∃ n, (nodeOf d).at p = some n := by
  obtain ⟨e, he⟩ := view_walk h
  exact ⟨_, (at_nodeOf (.inl hd) hp he).1⟩

theorem eff_axis {d : Dict} (hd : Entry d) {val : Str} {o : Option (List Str)} (h : AxisOf d val o) : Eff (nodeOf d) val o := by
  have ht := entry_tidy hd
  cases h with
  | @found q v A ho hv =>
    obtain ⟨n, hn⟩ := view_at_exists ht ho.path_plain hv
    refine .found (findIn_only ht ho) ho.path_plain ho.not_data hn (isDataset_view (v := v) (A := A) ?_)
    rw [← view_at ho.path_plain hn, List.append_nil, view_nodeOf hd, hv]
  | nowhere h =>
    refine .nowhere (findIn_absent ht fun q e hq hw => ?_)
    have := h q hq
    rw [walk_view (fun k hk => (hq k hk).1) hw, view] at this
    exact absurd this (by simp)
  | @gone q ho hv => exact .gone (findIn_only ht ho) ho.path_plain ho.not_data (by rw [view_nodeOf hd, hv])

theorem axis_plain {d : Dict} {val : Str} {o : Option (List Str)} (h : AxisOf d val o) (z : Str × List Str) (hz : z ∈ effLinks val o) :
    Plain z.1 := by
  cases h with
  | found ho _ => rw [List.mem_singleton.1 hz]; exact (ho.seen val (by simp)).1
  | nowhere => exact absurd hz (by simp [effLinks])
  | gone => exact absurd hz (by simp [effLinks])

theorem overwriteLinks_none (e : Str) (d : Dict) (f : NxFile) (h : ∀ l ∈ f.links, l.entry ≠ e) : overwriteLinks e d f = .ok f := by
  induction d using Dict.rec (motive_1 := fun _ => True) with
  | leaf => trivial
  | dict => trivial
  | nil => rfl
  | cons k v rest _ ih =>
    have : f.link? e k = none := by
      rw [NxFile.link?, List.find?_eq_none]
      intro l hl hc
      exact h l hl (of_decide_eq_true hc).1
    unfold overwriteLinks
    rw [if_pos (.inr (by rw [this]; rfl)), ih]

/-- How a file changes when a new entry is written. -/
def NewEntry (name : Str) (f f' : NxFile) : Prop :=
  ∃ a ch g own, f.tree = .node none a ch ∧ f' = ⟨.node none a (ch.set name g), f.links ++ own⟩ ∧ ∀ l ∈ own, l.entry = name

theorem newEntry_mk {name : Str} {f : NxFile} {a : List (Str × Leaf)} {ch : H5s} {g : H5} (hf : f.tree = .node none a ch)
    (own : List (Str × List Str)) :
    NewEntry name f ⟨.node none a (ch.set name g), f.links ++ own.map fun z => ⟨name, z.1, z.2⟩⟩ :=
  ⟨a, ch, g, _, hf, rfl, fun l hl => by obtain ⟨z, _, rfl⟩ := List.mem_map.1 hl; rfl⟩

/-- Writing an entry under a new name makes links for the two axes of the default plot, and reading the file gives
the entry back: every group, every dataset and every attribute other than `target`; the members of `data` named after the
axes are the datasets that the names stand for; and the other entries of the file are what they were. -/
theorem default_plot_in (pre : Str) (d : Dict) (hd : Entry d) (name : Str) (hn : Plain name) (f : NxFile) (a : List (Str × Leaf)) (ch : H5s)
    (hf : f.tree = .node none a ch) (hnew : ch.get? name = none) (hl : ∀ l ∈ f.links, l.entry ≠ name) (x y : Str)
    (ox oy : Option (List Str)) (A : Str → Option Leaf) (hdata : view d ["data".toList] = some (none, A))
    (hy : A "signal".toList = some (.str y)) (hx : A "axes".toList = some (.str x)) (hxy : x ≠ y)
    (hax : AxisOf d x ox) (hay : AxisOf d y oy)
    (hroom : ∀ k z, k = x ∨ k = y → view d ["data".toList, k] = some z → z.1 ≠ none) :
    ∃ f' r r₀, toNexusIn pre d name f = .ok f' ∧ NewEntry name f f' ∧ fromNexusFile f' none = .ok r ∧ fromNexusFile f none = .ok r₀ ∧
      (∀ p, (ox.isSome → ¬ ["data".toList, x] <+: p) → (oy.isSome → ¬ ["data".toList, y] <+: p) →
        SameBut (view r (name :: p)) (view d p)) ∧
      (∀ k o p, (k = x ∧ o = ox) ∨ (k = y ∧ o = oy) → o = some p →
        SameBut (view r [name, "data".toList, k]) (view d p) ∧
        ∃ w B, view r (name :: p) = some (w, B) ∧ B "target".toList = some (.str (pre ++ pathText (name :: p)))) ∧
      (∀ e p, Plain e → e ≠ name → view r (e :: p) = view r₀ (e :: p)) := by
  have ht := entry_tidy hd
  have hdp : ∀ k ∈ [kData], Plain k := by simp [plain_data]
  obtain ⟨dg, hdg⟩ := view_at_exists ht hdp hdata
  have hdgv : dg.view [] = some (none, A) := by
    rw [← hdata, ← view_nodeOf hd]; exact (view_at hdp hdg []).symm
  have hgrp : dg.isDataset = false := by
    cases dg with
    | node v b c => cases v with
      | none => rfl
      | some v => rw [H5.view] at hdgv; exact absurd hdgv (by simp)
  have hattr : ∀ k, lookupKey k dg.attrs = A k := by
    intro k
    cases dg with
    | node v b c =>
      rw [H5.view] at hdgv
      rw [← (Prod.mk.inj (Option.some.inj hdgv)).2]; rfl
  have hg0 : (ch.set name (nodeOf d)).get? name = some (nodeOf d) := by rw [H5s.get?_set, if_pos rfl]
  have hroom' : ∀ k n, k = x ∨ k = y → (nodeOf d).at [kData, k] = some n → n.isDataset = true := by
    intro k n hk hn'
    have hkp : Plain k ∨ ¬ Plain k := em _
    rcases hkp with hkp | hkp
    · have h1 := view_at (p := [kData, k]) (by simp [plain_data, hkp]) hn' []
      rw [List.append_nil, view_nodeOf hd] at h1
      cases n with
      | node v b c =>
        cases v with
        | some v => rfl
        | none =>
          rw [H5.view] at h1
          exact absurd rfl (hroom k _ hk h1)
    · exfalso
      have hdd := at_data hdg
      rw [tidy_node ht] at hn' hdd
      rw [H5.at, show (kids d).get? kData = some dg from hdd, Option.bind_some] at hn'
      obtain ⟨e, he⟩ := view_walk hdata
      obtain ⟨h1, h2⟩ := at_nodeOf (.inl ht) hdp he
      have hde : dg = nodeOf e := Option.some.inj (hdg.symm.trans h1)
      rw [hde] at hn'
      rcases h2 with h2 | ⟨v, h2⟩
      · rw [tidy_node h2, H5.at, kids_special hkp] at hn'; exact absurd hn' (by simp)
      · rw [ds_kids h2, H5.at] at hn'; exact absurd hn' (by simp)
  obtain ⟨g', hmk, hm⟩ := makeLinks_ok (a := a) (links := f.links) (pre := pre) hg0 hdg hgrp ((hattr _).trans hy) ((hattr _).trans hx) hxy
    (eff_axis hd hay) (eff_axis hd hax) hl hroom'
  rw [H5s.set_set] at hmk
  set own := effLinks y oy ++ effLinks x ox with hown
  have hmem : ∀ z, z ∈ own ↔ (z.1 = y ∧ oy = some z.2) ∨ (z.1 = x ∧ ox = some z.2) := by
    intro z
    rw [hown, List.mem_append]
    refine or_congr ?_ ?_
    · cases oy with
      | none => simp [effLinks]
      | some p =>
        rw [effLinks, Option.map_some, Option.toList_some, List.mem_singleton]
        exact ⟨fun h => by rw [h]; exact ⟨rfl, rfl⟩, fun h => Prod.ext h.1 (Option.some.inj h.2).symm⟩
    · cases ox with
      | none => simp [effLinks]
      | some p =>
        rw [effLinks, Option.map_some, Option.toList_some, List.mem_singleton]
        exact ⟨fun h => by rw [h]; exact ⟨rfl, rfl⟩, fun h => Prod.ext h.1 (Option.some.inj h.2).symm⟩
  have hplain : ∀ z ∈ own, Plain z.1 := by
    intro z hz
    rcases List.mem_append.1 hz with hz | hz
    · exact axis_plain hay z hz
    · exact axis_plain hax z hz
  have hnodup : (own.map Prod.fst).Nodup := by
    rw [hown]
    cases oy <;> cases ox <;> simp [effLinks, Ne.symm hxy]
  -- the file
  have hwrite : writeEntry d name f = .ok ⟨.node none a (ch.set name (nodeOf d)), f.links⟩ := by
    unfold writeEntry
    rw [hf, toNexus_new ht hnew, py_bind_ok]
    split
    · rw [overwriteLinks_none name _ f hl, py_bind_ok]
    · rw [py_bind_ok]
  set F : NxFile := ⟨.node none a (ch.set name g'), f.links ++ own.map fun z => ⟨name, z.1, z.2⟩⟩ with hF
  obtain ⟨ch', hr1, hr2⟩ := resolved_entry F (a := a) (ch := ch.set name g') rfl
  obtain ⟨ch₀, hr3, hr4⟩ := resolved_entry f hf
  have hgN : (ch.set name g').get? name = some g' := by rw [H5s.get?_set, if_pos rfl]
  obtain ⟨dg0, dg', hdg0, hdg', hgrp', _⟩ := hm.data
  have hfold : F.links.foldl (linkInto F name) g' = (own.map fun z => Link.mk name z.1 z.2).foldl (linkInto F name) g' := by
    rw [hF, List.foldl_append, linkInto_other _ name f.links hl]
  obtain ⟨hv1, hv2⟩ := view_links F (a := a) rfl hgN own hnodup hplain
    (fun z hz => by obtain ⟨n', h, _⟩ := hm.tgt z hz; exact ⟨n', h⟩) g' dg' hdg' hgrp'
  have hview : ∀ p, view (readMembers ch') (name :: p) =
      ((own.map fun z => Link.mk name z.1 z.2).foldl (linkInto F name) g').view p := by
    intro p
    rw [view, if_neg (not_or.2 hn), get?_readMembers, hr2 name, hgN, Option.map_some, Option.map_some]
    dsimp only
    rw [view_readNode, hfold]
  refine ⟨F, readMembers ch', readMembers ch₀, ?_, ?_, ?_, ?_, ?_, ?_, ?_⟩
  · rw [toNexusIn, hwrite, py_bind_ok, hmk]
  · exact newEntry_mk hf own
  · rw [fromNexusFile, hr1]; rfl
  · rw [fromNexusFile, hr3]; rfl
  · intro p hpx hpy
    have hno : ∀ z ∈ own, ¬ [kData, z.1] <+: p := by
      intro z hz
      rcases (hmem z).1 hz with ⟨h1, h2⟩ | ⟨h1, h2⟩
      · rw [h1]; exact hpy (by rw [h2]; rfl)
      · rw [h1]; exact hpx (by rw [h2]; rfl)
    rw [hview, hv1 p hno, ← view_nodeOf hd]
    exact hm.view p hno
  · intro k o p hko ho
    have hz : (k, p) ∈ own := by
      rw [hmem]
      rcases hko with ⟨h1, h2⟩ | ⟨h1, h2⟩
      · exact .inr ⟨h1, by rw [← h2, ho]⟩
      · exact .inl ⟨h1, by rw [← h2, ho]⟩
    obtain ⟨n', hn', hnd', hpd, hta⟩ := hm.tgt _ hz
    have hpp : ∀ c ∈ p, Plain c := by
      rcases hko with ⟨_, h2⟩ | ⟨_, h2⟩
      · rw [h2] at ho; subst ho
        cases hax with | found h3 _ => exact h3.path_plain
      · rw [h2] at ho; subst ho
        cases hay with | found h3 _ => exact h3.path_plain
    have hnod : ∀ z ∈ own, ¬ [kData, z.1] <+: p := by
      intro z _ hpre
      exact hpd ((show [kData] <+: [kData, z.1] from ⟨[z.1], rfl⟩).trans hpre)
    have hvp : g'.view p = n'.view [] := by
      have := view_at hpp hn' []; rwa [List.append_nil] at this
    refine ⟨?_, ?_⟩
    · have h1 := hv2 _ hz n' hn' []
      rw [hview, show ["data".toList, k] = kData :: (k, p).1 :: [] from rfl, h1, ← hvp, ← view_nodeOf hd]
      exact hm.view p hnod
    · rw [hview, hv1 p hnod, hvp]
      cases n' with
      | node v b c =>
        rw [H5.view]
        exact ⟨_, _, rfl, hta⟩
  · intro e p he hne
    rw [view, if_neg (not_or.2 he), view, if_neg (not_or.2 he), get?_readMembers, get?_readMembers, hr2 e, hr4 e, H5s.get?_set,
      if_neg hne]
    have hsame : ∀ g, F.links.foldl (linkInto F e) g = f.links.foldl (linkInto f e) g := by
      intro g
      rw [hF, List.foldl_append]
      rw [linkInto_other _ e (own.map fun z => Link.mk name z.1 z.2)]
      · rw [← hF]
        refine List.foldl_ext _ _ _ fun t l hl' => ?_
        unfold linkInto
        by_cases hle : l.entry = e
        · rw [if_pos hle, if_pos hle]
          have : F.target l = f.target l := by
            rw [NxFile.target, NxFile.target, hf, H5.at, H5.at, H5s.get?_set, if_neg (hl l hl')]
          rw [this]
        · rw [if_neg hle, if_neg hle]
      · intro l hl'
        obtain ⟨z, _, rfl⟩ := List.mem_map.1 hl'
        exact Ne.symm hne
    rw [show (fun g => F.links.foldl (linkInto F e) g) = fun g => f.links.foldl (linkInto f e) g from funext hsame]

/-- **C80**: writing an entry under a new name makes links for the two axes of the default plot, and reading the file gives
the entry back: every group, every dataset and every attribute other than `target`; the members of `data` named after the
axes are the datasets that the names stand for; and the other entries of the file are what they were. -/
theorem C80_default_plot (d : Dict) (hd : Entry d) (name : Str) (hn : Plain name) (f : NxFile) (a : List (Str × Leaf)) (ch : H5s)
    (hf : f.tree = .node none a ch) (hnew : ch.get? name = none) (hl : ∀ l ∈ f.links, l.entry ≠ name) (x y : Str)
    (ox oy : Option (List Str)) (A : Str → Option Leaf) (hdata : view d ["data".toList] = some (none, A))
    (hy : A "signal".toList = some (.str y)) (hx : A "axes".toList = some (.str x)) (hxy : x ≠ y)
    (hax : AxisOf d x ox) (hay : AxisOf d y oy)
    (hroom : ∀ k z, k = x ∨ k = y → view d ["data".toList, k] = some z → z.1 ≠ none) :
    ∃ f' r r₀, toNexusFile d name f = .ok f' ∧ fromNexusFile f' none = .ok r ∧ fromNexusFile f none = .ok r₀ ∧
      (∀ p, (ox.isSome → ¬ ["data".toList, x] <+: p) → (oy.isSome → ¬ ["data".toList, y] <+: p) →
        SameBut (view r (name :: p)) (view d p)) ∧
      (∀ k o p, (k = x ∧ o = ox) ∨ (k = y ∧ o = oy) → o = some p →
        SameBut (view r [name, "data".toList, k]) (view d p) ∧
        ∃ w B, view r (name :: p) = some (w, B) ∧ B "target".toList = some (.str (pathText (name :: p)))) ∧
      (∀ e p, Plain e → e ≠ name → view r (e :: p) = view r₀ (e :: p)) := by
  obtain ⟨f', r, r₀, h1, _, h2, h3, h4, h5, h6⟩ := default_plot_in [] d hd name hn f a ch hf hnew hl x y ox oy A hdata hy hx hxy hax hay
    hroom
  exact ⟨f', r, r₀, h1, h2, h3, h4, h5, h6⟩

end Tavi
