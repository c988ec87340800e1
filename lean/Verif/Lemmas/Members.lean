import Verif.Model.Builder
import Verif.Props.Entry
import Verif.Lemmas.Numpy
import Verif.Lemmas.Dec
import Verif.Lemmas.Assoc

/-!
# Groups made member by member
-/

namespace Tavi

open Spec

theorem get?_set (d : Dict) (q k : Str) (w : Val) : (d.set q w).get? k = if q = k then some w else d.get? k := by
  induction d using Dict.rec (motive_1 := fun _ => True) with
  | leaf => trivial
  | dict => trivial
  | nil => rfl
  | cons k' v' rest _ ih =>
    rw [Dict.set]
    by_cases h : k' = q
    · subst h
      rw [if_pos rfl, Dict.get?, Dict.get?]
      split <;> rfl
    · rw [if_neg h, Dict.get?, Dict.get?, ih]
      by_cases hk : k' = k
      · subst hk; rw [if_pos rfl, if_pos rfl, if_neg (Ne.symm h)]
      · rw [if_neg hk, if_neg hk]

theorem mem_items_set {d : Dict} {q k : Str} {w v : Val} (h : (k, v) ∈ items (d.set q w)) :
    (k, v) ∈ items d ∨ (k = q ∧ v = w) := by
  induction d using Dict.rec (motive_1 := fun _ => True) with
  | leaf => trivial
  | dict => trivial
  | nil =>
    simp only [Dict.set, items, List.mem_singleton, Prod.mk.injEq] at h
    exact .inr h
  | cons k' v' rest _ ih =>
    rw [Dict.set] at h
    by_cases hk : k' = q
    · subst hk
      rw [if_pos rfl] at h
      simp only [items, List.mem_cons, Prod.mk.injEq] at h ⊢
      rcases h with ⟨rfl, rfl⟩ | h
      · exact .inr ⟨rfl, rfl⟩
      · exact .inl (.inr h)
    · rw [if_neg hk] at h
      simp only [items, List.mem_cons] at h ⊢
      rcases h with h | h
      · exact .inl (.inl h)
      · rcases ih h with h | h
        · exact .inl (.inr h)
        · exact .inr h

theorem keys_eq (d : Dict) : d.keys = (items d).map Prod.fst := by
  induction d using Dict.rec (motive_1 := fun _ => True) with
  | leaf => trivial
  | dict => trivial
  | nil => rfl
  | cons k' v' rest _ ih => rw [Dict.keys, items, List.map_cons, ih]

theorem items_set_new {d : Dict} {q : Str} (w : Val) (h : q ∉ d.keys) : items (d.set q w) = items d ++ [(q, w)] := by
  induction d using Dict.rec (motive_1 := fun _ => True) with
  | leaf => trivial
  | dict => trivial
  | nil => rfl
  | cons k' v' rest _ ih =>
    rw [Dict.keys, List.mem_cons, not_or] at h
    rw [Dict.set, if_neg (Ne.symm h.1), items, items, ih h.2, List.cons_append]

theorem get?_none_iff (d : Dict) (k : Str) : d.get? k = none ↔ k ∉ d.keys := by
  induction d using Dict.rec (motive_1 := fun _ => True) with
  | leaf => trivial
  | dict => trivial
  | nil => simp [Dict.get?, Dict.keys]
  | cons k' v' rest _ ih =>
    rw [Dict.get?, Dict.keys, List.mem_cons, not_or]
    by_cases h : k' = k
    · rw [if_pos h]; simp [h]
    · rw [if_neg h, ih]; exact ⟨fun h' => ⟨Ne.symm h, h'⟩, fun h' => h'.2⟩

theorem get?_of_mem {d : Dict} (hd : d.keys.Nodup) {k : Str} {v : Val} (h : (k, v) ∈ items d) : d.get? k = some v := by
  induction d using Dict.rec (motive_1 := fun _ => True) with
  | leaf => trivial
  | dict => trivial
  | nil => simp [items] at h
  | cons k' v' rest _ ih =>
    rw [Dict.keys, List.nodup_cons] at hd
    rw [items, List.mem_cons] at h
    rw [Dict.get?]
    rcases h with h | h
    · obtain ⟨rfl, rfl⟩ := Prod.mk.inj h; rw [if_pos rfl]
    · rw [if_neg, ih hd.2 h]
      rintro rfl
      exact hd.1 (by rw [keys_eq]; exact List.mem_map_of_mem (f := Prod.fst) h)

theorem keys_set (d : Dict) (q : Str) (w : Val) : (d.set q w).keys = if q ∈ d.keys then d.keys else d.keys ++ [q] := by
  induction d using Dict.rec (motive_1 := fun _ => True) with
  | leaf => trivial
  | dict => trivial
  | nil => rfl
  | cons k' v' rest _ ih =>
    rw [Dict.set]
    by_cases h : k' = q
    · subst h; simp [Dict.keys]
    · rw [if_neg h, Dict.keys, ih]
      simp only [Dict.keys, List.mem_cons, Ne.symm (show k' ≠ q from h), false_or]
      split <;> simp

theorem nodup_keys_set {d : Dict} (hd : d.keys.Nodup) (q : Str) (w : Val) : (d.set q w).keys.Nodup := by
  rw [keys_set]
  split
  · exact hd
  · rename_i h
    rw [List.nodup_append]
    exact ⟨hd, by simp, by rintro a ha b hb rfl; simp at hb; subst hb; exact h ha⟩

/-- What a member holds. -/
theorem addMembers_get : ∀ {fs : List Field} {d d' : Dict}, addMembers fs d = .ok d' → (fs.map Prod.fst).Nodup →
    (∀ k, k ∉ fs.map Prod.fst → d'.get? k = d.get? k) ∧
    (∀ k f, (k, f) ∈ fs → ∃ o, f = .ok o ∧ d'.get? k = (o.map Val.dict).or (d.get? k))
  | [], d, d', h, _ => by
    obtain rfl := Except.ok.inj h
    exact ⟨fun _ _ => rfl, fun _ _ h => by simp at h⟩
  | f :: fs, d, d', h, hn => by
    rw [addMembers] at h
    obtain ⟨o, ho, h⟩ := py_bind_eq_ok.1 h
    rw [List.map_cons, List.nodup_cons] at hn
    obtain ⟨h1, h2⟩ := addMembers_get h hn.2
    have hset : ∀ k, f.1 ≠ k → (addDataset d f.1 o).get? k = d.get? k := by
      intro k hk
      cases o with
      | none => rfl
      | some ds => rw [addDataset, get?_set, if_neg hk]
    refine ⟨fun k hk => ?_, fun k g hg => ?_⟩
    · rw [List.map_cons, List.mem_cons, not_or] at hk
      rw [h1 k hk.2, hset k (Ne.symm hk.1)]
    · rw [List.mem_cons] at hg
      rcases hg with hg | hg
      · subst hg
        refine ⟨o, ho, ?_⟩
        rw [h1 k hn.1]
        cases o with
        | none => rfl
        | some ds => rw [addDataset, get?_set, if_pos rfl]; rfl
      · obtain ⟨o', ho', hg'⟩ := h2 k g hg
        refine ⟨o', ho', ?_⟩
        rw [hg', hset]
        rintro rfl
        exact hn.1 (List.mem_map.2 ⟨_, hg, rfl⟩)

/-- Nothing else is in the group. -/
theorem addMembers_items : ∀ {fs : List Field} {d d' : Dict}, addMembers fs d = .ok d' →
    ∀ k v, (k, v) ∈ items d' → (k, v) ∈ items d ∨ ∃ ds, v = .dict ds ∧ (k, .ok (some ds)) ∈ fs
  | [], d, d', h, k, v, hm => by
    obtain rfl := Except.ok.inj h
    exact .inl hm
  | f :: fs, d, d', h, k, v, hm => by
    rw [addMembers] at h
    obtain ⟨o, ho, h⟩ := py_bind_eq_ok.1 h
    rcases addMembers_items h k v hm with h | ⟨ds, hv, hds⟩
    · cases o with
      | none => exact .inl h
      | some ds =>
        rcases mem_items_set h with h | ⟨rfl, rfl⟩
        · exact .inl h
        · refine .inr ⟨ds, rfl, ?_⟩
          rw [← ho]; exact List.mem_cons_self
    · exact .inr ⟨ds, hv, List.mem_cons_of_mem _ hds⟩

theorem addMembers_nodup : ∀ {fs : List Field} {d d' : Dict}, addMembers fs d = .ok d' → d.keys.Nodup → d'.keys.Nodup
  | [], d, d', h, hd => by obtain rfl := Except.ok.inj h; exact hd
  | f :: fs, d, d', h, hd => by
    rw [addMembers] at h
    obtain ⟨o, ho, h⟩ := py_bind_eq_ok.1 h
    refine addMembers_nodup h ?_
    cases o with
    | none => exact hd
    | some ds => exact nodup_keys_set hd _ _

/-- A group of datasets: besides attributes only datasets, with names among `K`. -/
structure Flat (e : Dict) (K : List Str) : Prop where
  nodup : e.keys.Nodup
  sub : ∀ k v, (k, v) ∈ items e → (k = kAttrs ∧ ∃ a, v = .dict (strDict a)) ∨ (k ∈ K ∧ ∃ x a, v = .dict (nxDs x a))

/-- A member that is a dataset if it is there. -/
def Field.Good (f : Field) : Prop := ∀ ds, f.2 = .ok (some ds) → ∃ x a, ds = nxDs x a

theorem flat_addMembers {fs : List Field} {a : List (Str × Str)} {d' : Dict} (h : addMembers fs (nxEntry a) = .ok d')
    (hg : ∀ f ∈ fs, Field.Good f) : Flat d' (fs.map Prod.fst) := by
  refine ⟨addMembers_nodup h (by simp [nxEntry, Dict.keys]), fun k v hm => ?_⟩
  rcases addMembers_items h k v hm with h | ⟨ds, rfl, hds⟩
  · simp only [nxEntry, items, List.mem_singleton, Prod.mk.injEq] at h
    exact .inl ⟨h.1, a, h.2⟩
  · obtain ⟨x, a, rfl⟩ := hg _ hds ds rfl
    exact .inr ⟨List.mem_map_of_mem (f := Prod.fst) hds, x, a, rfl⟩

theorem has_eq_false {d : Dict} {k : Str} (h : d.get? k = none) : ¬ d.has k = true := by simp [Dict.has, h]

theorem getItem_scan {d : Dict} {k : Str} (ks : List Str) (a : Bool) (h : d.get? k = none) :
    getItem d (k :: ks) a = scanItems d (k :: ks) a := by
  rw [getItem, if_neg (has_eq_false h)]

theorem getItem_hit {d f : Dict} {k : Str} {ks : List Str} {a : Bool} {v : Val} (hw : walk d (k :: ks) = some f)
    (hf : f.get? (wanted a) = some v) : getItem d (k :: ks) a = .ok (some v) := by
  have hk : d.has k = true := by
    rw [walk] at hw
    split at hw
    · rename_i h; simp [Dict.has, h]
    · exact absurd hw (by simp)
  have hfol := follow_of_walk hw
  rw [getItem, if_pos hk]
  split
  · rename_i h; rw [hfol] at h; exact absurd h (by simp)
  · rename_i h; rw [hfol] at h; exact absurd h (by simp)
  · rename_i h; rw [hfol] at h; exact absurd (Except.ok.inj h) (by simp)
  · rename_i e h
    rw [hfol] at h
    injection (Except.ok.inj h) with h
    subst h
    rw [hf]

theorem getItem_miss {d e : Dict} {k k2 : Str} {a : Bool} (h : d.get? k = some (.dict e)) (h2 : e.get? k2 = none) :
    getItem d [k, k2] a = .ok none := by
  have hfol : follow (.dict d) [k, k2] = .error .keyError := by
    simp [follow, Val.index, h, h2]
  rw [getItem, if_pos (by simp [Dict.has, h])]
  split
  · rfl
  · rename_i h1; rw [hfol] at h1; simp_all
  · rename_i h1; rw [hfol] at h1; exact absurd h1 (by simp)
  · rename_i h1; rw [hfol] at h1; exact absurd h1 (by simp)

theorem nxDs_get (x : Leaf) (a : List (Str × Str)) {k : Str} (hk : Plain k) : (nxDs x a).get? k = none := by
  rw [nxDs, Dict.get?, if_neg (Ne.symm hk.2), Dict.get?, if_neg (Ne.symm hk.1)]; rfl

theorem getItem_nxDs (x : Leaf) (a : List (Str × Str)) {k : Str} (hk : Plain k) (ks : List Str) (b : Bool) :
    getItem (nxDs x a) (k :: ks) b = .ok none := by
  rw [getItem_scan ks b (nxDs_get x a hk)]
  refine scanItems_none fun k' e hm hp => ?_
  simp only [nxDs, items, List.mem_cons, Prod.mk.injEq, List.not_mem_nil, or_false] at hm
  rcases hm with ⟨_, h⟩ | ⟨h, _⟩
  · exact absurd h (by simp)
  · exact absurd h hp.1

theorem Flat.get_none {e : Dict} {K : List Str} (h : Flat e K) {k : Str} (hk : k ∉ K) (hp : Plain k) : e.get? k = none := by
  cases hg : e.get? k with
  | none => rfl
  | some v =>
    rcases h.sub k v (mem_items_of_get? hg) with ⟨h1, _⟩ | ⟨h1, _⟩
    · exact absurd h1 hp.1
    · exact absurd h1 hk

theorem Flat.item_none {e : Dict} {K : List Str} (h : Flat e K) {k : Str} (hp : Plain k) (hg : e.get? k = none)
    (ks : List Str) (b : Bool) : getItem e (k :: ks) b = .ok none := by
  rw [getItem_scan ks b hg]
  refine scanItems_none fun k' e' hm hp' => ?_
  rcases h.sub _ _ hm with ⟨h1, _⟩ | ⟨_, x, a, h1⟩
  · exact absurd h1 hp'.1
  · obtain rfl : e' = nxDs x a := by simpa using h1
    exact getItem_nxDs x a hp ks b

theorem item_found {e : Dict} {k : Str} {x : Leaf} {a : List (Str × Str)} (h : e.get? k = some (.dict (nxDs x a))) :
    getItem e [k] false = .ok (some (.leaf x)) :=
  getItem_hit (f := nxDs x a) (by rw [walk, h]; rfl) rfl

end Tavi
