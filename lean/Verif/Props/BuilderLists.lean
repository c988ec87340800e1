import Verif.Props.BuilderAxis

/-!
# Lists of texts in an entry made from a SPICE file
-/

namespace Tavi

open Spec

/-- Lists of texts only under some names, at any depth. -/
def AllLists (d : Dict) : Prop := ∀ e, Below d e → ListsAt e

theorem below_cases {d f : Dict} (h : Below d f) : f = d ∨ ∃ k e, (k, Val.dict e) ∈ items d ∧ Plain k ∧ Below e f := by
  cases h with
  | refl => exact .inl rfl
  | step hm hk hb => exact .inr ⟨_, _, hm, hk, hb⟩

theorem allLists_of {d : Dict} (h : ListsAt d) (hs : ∀ k e, (k, Val.dict e) ∈ items d → Plain k → AllLists e) : AllLists d := by
  intro f hf
  rcases below_cases hf with rfl | ⟨k, e, hm, hk, hb⟩
  · exact h
  · exact hs k e hm hk f hb

theorem items_ds {e : Dict} {x : Leaf} (h : Ds e x) {k : Str} {v : Val} (hm : (k, v) ∈ items e) : ¬ Plain k := by
  intro hk
  have : e.get? k = none := ds_no_member h hk
  rw [get?_none_iff, keys_eq] at this
  exact this (List.mem_map_of_mem (f := Prod.fst) hm)

theorem allLists_ds {e : Dict} {x : Leaf} (h : Ds e x) : AllLists e :=
  allLists_of (fun _ _ _ hm hk _ => absurd hk (items_ds h hm)) fun _ _ hm hk => absurd hk (items_ds h hm)

theorem items_nxDs {x : Leaf} {a : List (Str × Str)} {k : Str} {v : Val} (hm : (k, v) ∈ items (nxDs x a)) : ¬ Plain k := by
  intro hk
  have : (nxDs x a).get? k = none := nosub_nxDs x a k hk
  rw [get?_none_iff, keys_eq] at this
  exact this (List.mem_map_of_mem (f := Prod.fst) hm)

theorem allLists_nxDs (x : Leaf) (a : List (Str × Str)) : AllLists (nxDs x a) :=
  allLists_of (fun _ _ _ hm hk _ => absurd hk (items_nxDs hm)) fun _ _ hm hk => absurd hk (items_nxDs hm)

theorem allLists_neat {g : Dict} {K : List Str} (h : Neat g) (hf : Flat g K) : AllLists g := by
  refine allLists_of h.2 fun k e hm hk => ?_
  rcases hf.sub k _ hm with ⟨rfl, _⟩ | ⟨_, x, a, e'⟩
  · exact absurd rfl hk.1
  · obtain rfl : e = nxDs x a := by injection e'
    exact allLists_nxDs x a

theorem tidy_no_list {e : Dict} (h : Tidy e) {l : List Str} (hl : e.get? kDataset = some (.leaf (.strs l))) : False :=
  absurd h.not_has (by rw [hl]; simp)

section
variable {iso : Str → Py Str} {logs : List (Str × LogVal)} {p : Pieces}

theorem Fine.lists_inst (h : Fine p) : AllLists p.inst := by
  refine allLists_of (fun k f l hm hk hf => ?_) fun k e hm hk => ?_
  · rcases inst_items' p hm with rfl | ⟨g, e', hC⟩ | ⟨rfl, ds, e', hds⟩
    · exact absurd rfl hk.1
    · obtain rfl : f = g := by injection e'
      exact (tidy_no_list (h.neat_comp hC).1 hf).elim
    · decide
  · rcases inst_items' p hm with rfl | ⟨g, e', hC⟩ | ⟨rfl, ds, e', hds⟩
    · exact absurd rfl hk.1
    · obtain rfl : e = g := by injection e'
      obtain ⟨K, hK⟩ := h.flat_comp hC
      exact allLists_neat (h.neat_comp hC) hK
    · obtain rfl : e = ds := by injection e'
      obtain ⟨x, hx, _⟩ := dsText_ds (by decide) hds
      exact allLists_ds hx

theorem nodup_entry (p : Pieces) : (dropLogs p.entry).keys.Nodup := by
  refine nodup_drop ?_
  rw [Pieces.entry, assemble]
  refine nodup_keys_set (nodup_keys_set (nodup_keys_set (nodup_keys_set (nodup_addDataset (nodup_addDataset
    (nodup_addDataset ?_ _ _) _ _) _ _) _ _) _ _) _ _) _ _
  simp only [Dict.keys]; decide

theorem entry_definition' (p : Pieces) : ∃ x a, NotList x ∧ (dropLogs p.entry).get? "definition".toList = some (.dict (nxDs x a)) := by
  apply Exists.intro
  apply Exists.intro
  constructor
  swap
  · rw [entry_get _ (by decide) (by decide), Pieces.entry, assemble, get?_set, if_neg (by decide), get?_set,
      if_neg (by decide), get?_set, if_neg (by decide), get?_set, if_neg (by decide), get?_addDataset_ne _ (by decide),
      get?_addDataset_ne _ (by decide), get?_addDataset_ne _ (by decide)]
    rfl
  · intro l e; cases e

/-- The whole entry. -/
theorem Fine.lists (h : Fine p) : AllLists (dropLogs p.entry) := by
  have key : ∀ k e, (k, Val.dict e) ∈ items (dropLogs p.entry) → Plain k →
      AllLists e ∧ ∀ l, e.get? kDataset ≠ some (.leaf (.strs l)) := by
    intro k e hm hk
    have hg := get?_of_mem (nodup_entry p) hm
    have htop := (h.top_items hm).1
    have group : ∀ {g : Dict} {K : List Str}, (dropLogs p.entry).get? k = some (.dict g) → Neat g → Flat g K →
        AllLists e ∧ ∀ l, e.get? kDataset ≠ some (.leaf (.strs l)) := by
      intro g K hk hn hf
      rw [hk] at hg
      obtain rfl : g = e := by simpa using hg
      exact ⟨allLists_neat hn hf, fun l hl => tidy_no_list hn.1 hl⟩
    have data : ∀ {o : Option Dict}, (dropLogs p.entry).get? k = o.map Val.dict → (∀ ds, o = some ds → ∃ x, Ds ds x ∧ NotList x) →
        AllLists e ∧ ∀ l, e.get? kDataset ≠ some (.leaf (.strs l)) := by
      intro o ho hds
      cases o with
      | none => rw [ho] at hg; exact absurd hg (by simp)
      | some ds =>
        rw [ho] at hg
        obtain rfl : ds = e := by simpa using hg
        obtain ⟨x, hx, hn⟩ := hds _ rfl
        refine ⟨allLists_ds hx, fun l hl => ?_⟩
        rw [ds_get hx] at hl
        injection hl with hl; injection hl with hl
        exact hn l hl
    simp only [topK, List.mem_cons, List.not_mem_nil, or_false] at htop
    rcases htop with rfl | rfl | rfl | rfl | rfl | rfl | rfl | rfl | rfl | rfl
    · exact absurd rfl hk.1
    · rw [entry_data] at hg
      obtain rfl : buildData p.md = e := by simpa using hg
      refine ⟨allLists_of ?_ ?_, fun l hl => tidy_no_list (tidy_buildData _) hl⟩
      · intro k f l hm hk _
        simp only [buildData, nxEntry, items, List.mem_singleton, Prod.mk.injEq] at hm
        exact absurd hm.1 hk.1
      · intro k f hm hk
        simp only [buildData, nxEntry, items, List.mem_singleton, Prod.mk.injEq] at hm
        exact absurd hm.1 hk.1
    · obtain ⟨x, a, hn, hx⟩ := entry_definition' p
      rw [hx] at hg
      obtain rfl : nxDs x a = e := by simpa using hg
      refine ⟨allLists_nxDs x a, fun l hl => hn l ?_⟩
      injection hl with hl; injection hl
    · exact data (entry_title p) fun ds hd => dsText_ds (by decide) hd
    · exact data (entry_start p) fun ds hd => (h.starts _ hd).2
    · exact data (entry_stop p) fun ds hd => (h.stops _ hd).2
    · rw [entry_inst] at hg
      obtain rfl : p.inst = e := by simpa using hg
      exact ⟨h.lists_inst, fun l hl => tidy_no_list h.tidy_inst hl⟩
    · obtain ⟨K, hK⟩ := h.flat_mon
      exact group (entry_mon p) h.neat_mon hK
    · obtain ⟨K, hK⟩ := h.flat_samp
      exact group (entry_samp p) h.neat_samp hK
    · obtain ⟨K, hK⟩ := h.flat_user
      exact group (entry_user p) h.neat_user hK
  exact allLists_of (fun k f l hm hk hf => absurd hf ((key k f hm hk).2 l)) fun k e hm hk => (key k e hm hk).1

/-- A list of texts is found only under some names. -/
theorem Fine.list_at (h : Fine p) {k : Str} {ks : List Str} (hp : ∀ q ∈ k :: ks, Plain q) {l : List Str}
    (hl : getItem (dropLogs p.entry) (k :: ks) false = .ok (some (.leaf (.strs l)))) :
    (k :: ks).getLast (by simp) ∈ listNames := by
  obtain ⟨e, he, f, hf, hx⟩ := getItem_sound hp hl
  have hd : k :: ks = (k :: ks).dropLast ++ [(k :: ks).getLast (by simp)] := (List.dropLast_append_getLast _).symm
  rw [hd] at hf
  obtain ⟨e1, h1, h2⟩ := walk_last hf
  have hpl : ∀ q ∈ (k :: ks).dropLast, Plain q := fun q hq => hp q (List.mem_of_mem_dropLast hq)
  exact h.lists e1 (he.trans (below_of_walk hpl h1)) _ f l (mem_items_of_get? h2) (hp _ (List.getLast_mem _)) hx

end

end Tavi
