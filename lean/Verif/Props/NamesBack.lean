import Verif.Props.Clean
import Verif.Props.BuilderLists

/-!
# The names of the data of an entry that was written and read
-/

namespace Tavi

open Spec

theorem items_norm {d : Dict} {k : Str} {w : Val} :
    (k, w) ∈ items (norm d) ↔ k ≠ kAttrs ∧ ∃ v, (k, v) ∈ items d ∧ w = normV v := by
  induction d using Dict.rec (motive_1 := fun _ => True) with
  | leaf => trivial
  | dict => trivial
  | nil => simp [norm, items]
  | cons k' v' rest _ ih =>
    by_cases hk : k' = kAttrs
    · rw [norm, if_pos hk, ih]
      refine and_congr_right fun hne => ?_
      constructor
      · rintro ⟨v, hv, e⟩; exact ⟨v, List.mem_cons_of_mem _ hv, e⟩
      · rintro ⟨v, hv, e⟩
        rcases List.mem_cons.1 hv with hv | hv
        · exact absurd ((Prod.mk.inj hv).1.trans hk) hne
        · exact ⟨v, hv, e⟩
    · rw [norm_cons hk, items, List.mem_cons, ih]
      constructor
      · rintro (h | ⟨hne, v, hv, e⟩)
        · obtain ⟨rfl, rfl⟩ := Prod.mk.inj h
          exact ⟨hk, v', List.mem_cons_self, rfl⟩
        · exact ⟨hne, v, List.mem_cons_of_mem _ hv, e⟩
      · rintro ⟨hne, v, hv, e⟩
        rcases List.mem_cons.1 hv with hv | hv
        · obtain ⟨rfl, rfl⟩ := Prod.mk.inj hv
          exact .inl (by rw [e])
        · exact .inr ⟨hne, v, hv, e⟩

/-- A text or nothing. -/
def NoArray (o : Option Leaf) : Prop := o = none ∨ ∃ s, o = some (.str s)

/-- The attributes do not count as data. -/
theorem attrs_name {a : List (Str × Leaf)} (h : NoArray (lookupKey kDataset a)) (L : List Str) (n : ℕ) (k : Str) :
    nameItem L n k (.dict (attrsDict a)) = .ok false := by
  have hg : ∀ a : List (Str × Leaf), (attrsDict a).get? kDataset = (lookupKey kDataset a).map Val.leaf := by
    intro a
    induction a with
    | nil => rfl
    | cons z a ih =>
      obtain ⟨k, v⟩ := z
      rw [attrsDict, Dict.get?, lookupKey]
      split
      · rfl
      · exact ih
  rw [nameItem, mentionsDataset, py_bind_ok]
  rcases h with h | ⟨s, h⟩
  · rw [if_neg (has_eq_false (by rw [hg, h]; rfl))]
  · rw [if_pos (by rw [Dict.has, hg, h]; rfl), Val.index, hg, h]; rfl

theorem norm_nxDs (x : Leaf) (a : List (Str × Str)) : norm (nxDs x a) = .cons kDataset (.leaf (readLeaf x)) .nil := by
  rw [nxDs, norm_cons (Ne.symm kAttrs_ne_kDataset), norm, if_pos rfl, norm, normV]

/-- A dataset that was read. -/
theorem read_dataset {m : H5} {x : Leaf} {L : List Str} {n : ℕ} {k : Str}
    (h : norm (readNode m) = .cons kDataset (.leaf (readLeaf x)) .nil) :
    nameItem L n k (.dict (readNode m)) = .ok (sizedArray L n k (.leaf (readLeaf x))) := by
  have hg : (norm (readNode m)).get? kDataset = some (.leaf (readLeaf x)) := by rw [h, Dict.get?, if_pos rfl]
  rw [get?_norm _ (Ne.symm kAttrs_ne_kDataset)] at hg
  obtain ⟨w, hw, e⟩ := Option.map_eq_some_iff.1 hg
  cases w with
  | dict d => rw [normV] at e; cases e
  | leaf v =>
    rw [normV] at e
    have hv := read_leaf hw
    injection e with e
    rw [hv] at e
    subst e
    rw [nameItem, mentionsDataset, py_bind_ok, if_pos (by rw [Dict.has, hw]; rfl), Val.index, hw]; rfl

theorem attrDict_flat {d : Dict} (h : AttrDict d) {k : Str} {e : Dict} (hk : d.get? k = some (.dict e)) : False := by
  induction h with
  | nil => exact absurd hk (by simp [Dict.get?])
  | cons _ _ ih =>
    rw [Dict.get?] at hk
    split at hk
    · exact absurd hk (by simp)
    · exact ih hk

/-- What the list shows of a group after writing and reading. -/
def Kept (n : ℕ) (g : Dict) (k : Str) : Prop :=
  ∃ x a, (k, Val.dict (nxDs x a)) ∈ items g ∧ sizedArray [] n k (.leaf (readLeaf x)) = true

/-- The names in a group of datasets, after writing and reading. -/
theorem flat_back {g : Dict} {K : List Str} (hf : Flat g K) (ht : Tidy g) {a : List (Str × Leaf)} {ch : H5s} (hc : ch.Clean)
    (hn : norm (readNode (.node none a ch)) = norm g) (ha : NoArray (lookupKey kDataset a)) (n : ℕ) :
    ∃ l, namesIn [] n (readNode (.node none a ch)) = .ok l ∧ ∀ k, k ∈ l ↔ Kept n g k := by
  have hall : ∀ k v, (k, v) ∈ items (readNode (.node none a ch)) → (k = kAttrs ∧ nameItem [] n k v = .ok false) ∨
      ∃ x b, (k, Val.dict (nxDs x b)) ∈ items g ∧ nameItem [] n k v = .ok (sizedArray [] n k (.leaf (readLeaf x))) := by
    intro k v hm
    by_cases hk : k = kAttrs
    · subst hk
      rw [clean_attrs hc hm]
      exact .inl ⟨rfl, attrs_name ha _ _ _⟩
    · have h1 : (k, normV v) ∈ items (norm g) := by rw [← hn]; exact items_norm.2 ⟨hk, v, hm, rfl⟩
      obtain ⟨_, w, hw, e⟩ := items_norm.1 h1
      rcases hf.sub k w hw with ⟨hk', _⟩ | ⟨_, x, b, rfl⟩
      · exact absurd hk' hk
      · refine .inr ⟨x, b, hw, ?_⟩
        have hm' := hm
        rw [readNode, items, List.mem_cons] at hm'
        rcases hm' with hm' | hm'
        · exact absurd (Prod.mk.inj hm').1 hk
        · obtain ⟨_, m, _, rfl⟩ := mem_readMembers hm' hc
          rw [normV, normV, norm_nxDs] at e
          injection e with e
          exact read_dataset e
  obtain ⟨l, hl⟩ := namesIn_ok (L := []) (n := n) (d := readNode (.node none a ch)) fun k v hm => by
    rcases hall k v hm with ⟨_, h⟩ | ⟨x, b, _, h⟩
    · exact ⟨_, h⟩
    · exact ⟨_, h⟩
  refine ⟨l, hl, fun k => ?_⟩
  rw [namesIn_mem hl]
  constructor
  · rintro ⟨v, hm, hv⟩
    rcases hall k v hm with ⟨_, h⟩ | ⟨x, b, hx, h⟩
    · rw [h] at hv; exact absurd (Except.ok.inj hv) (by simp)
    · rw [h] at hv; exact ⟨x, b, hx, Except.ok.inj hv⟩
  · rintro ⟨x, b, hx, hs⟩
    have hk : k ≠ kAttrs := by
      rintro rfl
      rcases items_tidy ht hx with ⟨_, d, e, hd⟩ | ⟨hp, _⟩
      · obtain rfl : nxDs x b = d := by injection e
        exact attrDict_flat hd (show (nxDs x b).get? kAttrs = some (.dict (strDict b)) from rfl)
      · exact hp.1 rfl
    have h1 : (k, normV (.dict (nxDs x b))) ∈ items (norm g) := items_norm.2 ⟨hk, _, hx, rfl⟩
    rw [← hn] at h1
    obtain ⟨_, v, hv, e⟩ := items_norm.1 h1
    refine ⟨v, hv, ?_⟩
    have hm' := hv
    rw [readNode, items, List.mem_cons] at hm'
    rcases hm' with hm' | hm'
    · exact absurd (Prod.mk.inj hm').1 hk
    · obtain ⟨_, m, _, rfl⟩ := mem_readMembers hm' hc
      rw [normV, normV, norm_nxDs] at e
      injection e with e
      rw [read_dataset e.symm, hs]

theorem keys_readMembers {ch : H5s} (h : ch.Clean) : ∀ k ∈ (readMembers ch).keys, k ≠ kAttrs := by
  intro k hk
  rw [keys_eq] at hk
  obtain ⟨z, hz, rfl⟩ := List.mem_map.1 hk
  exact (mem_readMembers (k := z.1) (v := z.2) hz h).1

theorem nodup_read {a : List (Str × Leaf)} {ch : H5s} (h : ch.Clean) (hn : (norm (readNode (.node none a ch))).keys.Nodup) :
    (readNode (.node none a ch)).keys.Nodup := by
  rw [keys_norm, readNode, Dict.keys, List.filter_cons_of_neg (by simp)] at hn
  rw [List.filter_eq_self.2 fun k hk => by simpa using keys_readMembers h k hk] at hn
  rw [readNode, Dict.keys, List.nodup_cons]
  exact ⟨fun hk => keys_readMembers h _ hk rfl, hn⟩

/-- A node that is read as a group is a group. -/
theorem group_read {m : H5} {g : Dict} (hg : Tidy g) (hn : norm (readNode m) = norm g) : ∃ a ch, m = .node none a ch := by
  cases m with
  | node v a ch =>
    cases v with
    | none => exact ⟨a, ch, rfl⟩
    | some v =>
      exfalso
      have h1 : (norm g).get? kDataset = none := by
        rw [get?_norm _ (Ne.symm kAttrs_ne_kDataset), hg.not_has]; rfl
      rw [← hn, get?_norm _ (Ne.symm kAttrs_ne_kDataset)] at h1
      cases a with
      | nil => rw [readNode, Dict.get?, if_pos rfl] at h1; exact absurd h1 (by simp)
      | cons z a =>
        rw [readNode, Dict.get?, if_neg kAttrs_ne_kDataset, Dict.get?, if_pos rfl] at h1
        · exact absurd h1 (by simp)
        · simp

theorem attrOf_read (v : Option Leaf) (a : List (Str × Leaf)) (ch : H5s) (x : Str) :
    attrOf (readNode (.node v a ch)) x = lookupKey x a ∨ (∃ w, v = some w) := by
  cases v with
  | none =>
    refine .inl ?_
    rw [attrOf, readNode, Dict.get?, if_pos rfl]
    exact attrIn_attrsDict a x
  | some w => exact .inr ⟨w, rfl⟩

section
variable {iso : Str → Py Str} {logs : List (Str × LogVal)} {p : Pieces}

/-- What the list shows of a component after writing and reading. -/
def KeptComp (n : ℕ) (C : Str) (g : Dict) (k : Str) : Prop :=
  if C = "detector".toList ∧ (g.get? "data".toList).isSome then k = "detector".toList else Kept n g k

theorem comp_back (h : Fine p) {C : Str} {g : Dict} (hC : (C, g) ∈ p.comps) {m : H5} (hm : m.Clean)
    (hn : norm (readNode m) = norm g) (ha : NoArray (attrOf (readNode m) kDataset)) (n : ℕ) :
    ∃ b, namesComponent [] n C (.dict (readNode m)) = .ok b ∧ ∀ k, k ∈ b ↔ KeptComp n C g k := by
  have hne : C ≠ kAttrs := by
    have : ∀ s ∈ instK.take 8, s ≠ kAttrs := by decide
    exact this C (List.mem_map_of_mem (f := Prod.fst) hC)
  obtain ⟨K, hf⟩ := h.flat_comp hC
  have ht := (h.neat_comp hC).1
  obtain ⟨a, ch, rfl⟩ := group_read ht hn
  rw [(attrOf_read none a ch kDataset).resolve_right (by simp)] at ha
  obtain ⟨l, hl, hmem⟩ := flat_back hf ht (clean_node.1 hm) hn ha n
  have hdat : (readNode (.node none a ch)).has "data".toList = (g.get? "data".toList).isSome := by
    rw [← has_norm _ (by decide), hn, has_norm _ (by decide)]; rfl
  rw [namesComponent, if_neg hne]
  unfold KeptComp
  by_cases hd : C = "detector".toList
  · rw [if_pos hd]
    by_cases hda : (g.get? "data".toList).isSome = true
    · rw [if_pos (by rw [hdat, hda])]
      exact ⟨_, rfl, fun k => by rw [if_pos ⟨hd, hda⟩, List.mem_singleton]⟩
    · rw [if_neg (by rw [hdat]; exact hda), hl]
      refine ⟨_, rfl, fun k => ?_⟩
      rw [if_neg (fun e => hda e.2), List.mem_append, or_self, hmem]
  · rw [if_neg hd, hl]
    exact ⟨_, rfl, fun k => by rw [if_neg (fun e => hd e.1), hmem]⟩

theorem name_back {md : List (Str × MetaVal)} {ds : Dict} (hds : dsText (textOf md "instrument".toList) [] = some ds)
    (hfine : NameFine md) {m : H5} (hn : norm (readNode m) = norm ds) (ha : NoArray (attrOf (readNode m) kDataset)) (n : ℕ) :
    namesComponent [] n "name".toList (.dict (readNode m)) = .ok [] := by
  rw [namesComponent, if_neg (by decide)]
  rw [if_neg (by decide)]
  cases hs : textOf md "instrument".toList with
  | none => rw [hs] at hds; exact absurd hds (by simp [dsText])
  | some s =>
    rw [hs] at hds
    cases s with
    | nil => exact absurd hds (by simp [dsText])
    | cons c s =>
      obtain rfl := Option.some.inj hds
      have h1 : nameItem [] n kDataset (.leaf (.str (c :: s))) = .ok false := by
        rw [nameItem, mentionsDataset, py_bind_ok, hfine _ hs, if_neg (by simp)]
      have hg : (norm (readNode m)).get? kDataset = some (.leaf (.str (c :: s))) := by
        rw [hn, norm_nxDs, Dict.get?, if_pos rfl]; rfl
      rw [get?_norm _ (Ne.symm kAttrs_ne_kDataset)] at hg
      cases m with
      | node v a ch =>
        cases v with
        | none =>
          rw [readNode, Dict.get?, if_neg kAttrs_ne_kDataset, get?_readMembers] at hg
          cases hc : ch.get? kDataset with
          | none => rw [hc] at hg; exact absurd hg (by simp)
          | some n =>
            rw [hc, Option.map_some, Option.map_some, normV] at hg
            exact absurd hg (by simp)
        | some w =>
          cases a with
          | nil =>
            rw [readNode, Dict.get?, if_pos rfl, Option.map_some, normV, readLeaf_readLeaf] at hg
            injection hg with hg; injection hg with hg
            rw [readNode, namesIn, hg, h1]; rfl
          | cons z a =>
            have hr : readNode (.node (some w) (z :: a) ch) =
                .cons kAttrs (.dict (attrsDict (z :: a))) (.cons kDataset (.leaf (readLeaf w)) .nil) := by
              rw [readNode]; simp
            rw [hr, Dict.get?, if_neg kAttrs_ne_kDataset, Dict.get?, if_pos rfl, Option.map_some, normV, readLeaf_readLeaf] at hg
            injection hg with hg; injection hg with hg
            have ha' : NoArray (lookupKey kDataset (z :: a)) := by
              have : attrOf (readNode (.node (some w) (z :: a) ch)) kDataset = lookupKey kDataset (z :: a) := by
                rw [hr, attrOf, Dict.get?, if_pos rfl]; exact attrIn_attrsDict _ _
              rw [← this]; exact ha
            rw [hr, namesIn, attrs_name ha', py_bind_ok, namesIn, hg, h1]; rfl

/-- The names in the instrument. -/
theorem inst_back (h : Fine p) (hfine : NameFine p.md) {a : List (Str × Leaf)} {ch : H5s} (hc : ch.Clean)
    (hn : norm (readNode (.node none a ch)) = norm p.inst)
    (ha : ∀ C e, (readNode (.node none a ch)).get? C = some (.dict e) → C ≠ kAttrs → NoArray (attrOf e kDataset)) (n : ℕ) :
    ∃ l, namesInstrument [] n (readNode (.node none a ch)) = .ok l ∧
      ∀ k, k ∈ l ↔ ∃ C g, (C, g) ∈ p.comps ∧ KeptComp n C g k := by
  have hnd : (readNode (.node none a ch)).keys.Nodup := nodup_read hc (by
    rw [hn, keys_norm]; exact h.tidy_inst.nodup.filter _)
  have hall : ∀ C v, (C, v) ∈ items (readNode (.node none a ch)) →
      (∃ g b, (C, g) ∈ p.comps ∧ namesComponent [] n C v = .ok b ∧ ∀ k, k ∈ b ↔ KeptComp n C g k) ∨
      (namesComponent [] n C v = .ok [] ∧ C ∉ p.comps.map Prod.fst) := by
    intro C v hm
    by_cases hk : C = kAttrs
    · refine .inr ⟨by unfold namesComponent; exact if_pos hk, ?_⟩
      rw [hk]
      show kAttrs ∉ instK.take 8
      decide
    · have h1 : (C, normV v) ∈ items (norm p.inst) := by rw [← hn]; exact items_norm.2 ⟨hk, v, hm, rfl⟩
      obtain ⟨_, w, hw, e⟩ := items_norm.1 h1
      have hget := get?_of_mem hnd hm
      have hm' := hm
      rw [readNode, items, List.mem_cons] at hm'
      rcases hm' with hm' | hm'
      · exact absurd (Prod.mk.inj hm').1 hk
      · obtain ⟨_, m, hmc, rfl⟩ := mem_readMembers hm' hc
        have ham := ha C _ hget hk
        rcases inst_items' p hw with hk' | ⟨g, rfl, hg⟩ | ⟨rfl, ds, rfl, hds⟩
        · exact absurd hk' hk
        · rw [normV, normV] at e
          injection e with e
          obtain ⟨b, hb, hmem⟩ := comp_back h hg hmc e ham n
          exact .inl ⟨g, b, hg, hb, hmem⟩
        · rw [normV, normV] at e
          injection e with e
          refine .inr ⟨name_back hds hfine e ham n, ?_⟩
          show "name".toList ∉ instK.take 8
          decide
  obtain ⟨l, hl⟩ := namesInstrument_ok (L := []) (n := n) (d := readNode (.node none a ch)) fun C v hm => by
    rcases hall C v hm with ⟨_, b, _, hb, _⟩ | ⟨hb, _⟩
    · exact ⟨b, hb⟩
    · exact ⟨_, hb⟩
  refine ⟨l, hl, fun k => ?_⟩
  rw [namesInstrument_mem hl]
  constructor
  · rintro ⟨C, v, b, hm, hb, hk⟩
    rcases hall C v hm with ⟨g, b', hg, hb', hmem⟩ | ⟨hb', _⟩
    · obtain rfl := Except.ok.inj (hb.symm.trans hb')
      exact ⟨C, g, hg, (hmem k).1 hk⟩
    · obtain rfl := Except.ok.inj (hb.symm.trans hb')
      exact absurd hk (by simp)
  · rintro ⟨C, g, hg, hk⟩
    have hCne : C ≠ kAttrs := by
      have : ∀ s ∈ instK.take 8, s ≠ kAttrs := by decide
      exact this C (List.mem_map_of_mem (f := Prod.fst) hg)
    have h1 : (C, normV (.dict g)) ∈ items (norm p.inst) := items_norm.2 ⟨hCne, _, comp_mem_inst p hg, rfl⟩
    rw [← hn] at h1
    obtain ⟨_, v, hv, _⟩ := items_norm.1 h1
    rcases hall C v hv with ⟨g', b, hg', hb, hmem⟩ | ⟨_, hno⟩
    · have : g' = g := by
        have h2 := inst_comp p hg
        rw [inst_comp p hg'] at h2
        simpa using h2
      subst this
      exact ⟨C, v, b, hv, hb, (hmem k).2 hk⟩
    · exact absurd (List.mem_map_of_mem (f := Prod.fst) hg) hno

end

end Tavi
