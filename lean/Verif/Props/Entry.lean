import Verif.Model.Nexus

/-!
# Reading from an entry (C42)

`Spec.items`, `Spec.walk`, `Spec.Below` and `Spec.nexusPart` describe what an entry contains, independently of the
recursive search of the code.
-/

namespace Tavi

namespace Spec

/-- The items of a dict. -/
def items : Dict → List (Str × Val)
  | .nil => []
  | .cons k v rest => (k, v) :: items rest

/-- The dict with the given items. -/
def ofItems : List (Str × Val) → Dict
  | [] => .nil
  | (k, v) :: l => .cons k v (ofItems l)

/-- The dict reached from `d` by a path. -/
def walk : Dict → List Str → Option Dict
  | d, [] => some d
  | d, k :: ks => match d.get? k with
    | some (.dict e) => walk e ks
    | _ => none

/-- A name of a group or dataset, i.e. not one of the special keys. -/
def Plain (k : Str) : Prop := k ≠ "attrs".toList ∧ k ≠ "dataset".toList

/-- `e` is `d`, or a group or dataset somewhere below `d`. -/
inductive Below : Dict → Dict → Prop
  | refl (d) : Below d d
  | step {d e f k} : (k, Val.dict e) ∈ items d → Plain k → Below e f → Below d f

/-- The part of an entry that is not a data-acquisition log. -/
def nexusPart (d : Dict) : Dict :=
  ofItems ((items d).filter fun kv => decide (kv.1 ≠ "SPICElogs".toList ∧ kv.1 ≠ "DASlogs".toList))

/-- The key under which the data or the attributes are kept. -/
def slot (attrs : Bool) : Str := if attrs then "attrs".toList else "dataset".toList

/-- The node addressed by `k :: ks`, seen from `e`, holds `x`. -/
def Holds (e : Dict) (path : List Str) (attrs : Bool) (x : Val) : Prop :=
  ∃ f, walk e path = some f ∧ f.get? (slot attrs) = some x

end Spec

open Spec

theorem mem_items_of_get? {d : Dict} {k : Str} {v : Val} (h : d.get? k = some v) : (k, v) ∈ items d := by
  induction d using Dict.rec (motive_1 := fun _ => True) with
  | leaf => trivial
  | dict => trivial
  | nil => simp [Dict.get?] at h
  | cons k' v' rest _ ih =>
    rw [Dict.get?] at h
    by_cases hk : k' = k
    · rw [if_pos hk] at h
      obtain rfl := Option.some.inj h
      simp [items, hk]
    · rw [if_neg hk] at h
      simp [items, ih h]

theorem sizeOf_mem_items {d : Dict} {k : Str} {v : Val} (h : (k, v) ∈ items d) : sizeOf v < sizeOf d := by
  induction d using Dict.rec (motive_1 := fun _ => True) with
  | leaf => trivial
  | dict => trivial
  | nil => simp [items] at h
  | cons k' v' rest _ ih =>
    rw [items, List.mem_cons] at h
    rcases h with h | h
    · obtain ⟨rfl, rfl⟩ := Prod.mk.inj h
      simp only [Dict.cons.sizeOf_spec]
      omega
    · have := ih h
      simp only [Dict.cons.sizeOf_spec]
      omega

theorem slot_eq_wanted (a : Bool) : slot a = wanted a := rfl

theorem follow_of_walk {d e : Dict} {ks : List Str} (h : walk d ks = some e) : follow (.dict d) ks = .ok (.dict e) := by
  induction ks generalizing d with
  | nil => obtain rfl := Option.some.inj h; rfl
  | cons k ks ih =>
    rw [walk] at h
    split at h
    · rename_i e' hg
      rw [follow, Val.index, hg]
      exact ih h
    · exact absurd h (by simp)

theorem walk_of_follow {d e : Dict} {ks : List Str} (h : follow (.dict d) ks = .ok (.dict e)) : walk d ks = some e := by
  induction ks generalizing d with
  | nil => obtain h := Except.ok.inj h; injection h with h; rw [h]; rfl
  | cons k ks ih =>
    rw [follow, Val.index] at h
    rw [walk]
    cases hg : d.get? k with
    | none => rw [hg] at h; exact absurd h (by simp [need, bind, Except.bind])
    | some u =>
      rw [hg] at h
      have h' : follow u ks = .ok (.dict e) := h
      cases u with
      | dict e' => exact ih h'
      | leaf a =>
        cases ks with
        | nil => exact absurd (Except.ok.inj h') (by simp)
        | cons k' ks' => exact absurd h' (by simp [follow, Val.index, bind, Except.bind])

theorem below_of_walk {d e : Dict} {ks : List Str} (hp : ∀ k ∈ ks, Plain k) (h : walk d ks = some e) : Below d e := by
  induction ks generalizing d with
  | nil => obtain rfl := Option.some.inj h; exact .refl _
  | cons k ks ih =>
    rw [walk] at h
    split at h
    · rename_i e' hg
      exact .step (mem_items_of_get? hg) (hp k (by simp)) (ih (fun k' hk' => hp k' (by simp [hk'])) h)
    · exact absurd h (by simp)

theorem Spec.Below.trans {a b c : Dict} (h : Below a b) (h' : Below b c) : Below a c := by
  induction h with
  | refl => exact h'
  | step hm hp _ ih => exact .step hm hp (ih h')

/-- What a scan of the items finds was found by the search in one of them. -/
theorem scanItems_some {d : Dict} {parts : List Str} {a : Bool} {x : Val}
    (h : scanItems d parts a = .ok (some x)) :
    ∃ k e, (k, Val.dict e) ∈ items d ∧ Plain k ∧ getItem e parts a = .ok (some x) := by
  induction d using Dict.rec (motive_1 := fun _ => True) with
  | leaf => trivial
  | dict => trivial
  | nil => rw [scanItems] at h; exact absurd (Except.ok.inj h) (by simp)
  | cons k v rest _ ih =>
    rw [scanItems.eq_def] at h
    dsimp only at h
    have lift : (∃ k e, (k, Val.dict e) ∈ items rest ∧ Plain k ∧ getItem e parts a = .ok (some x)) →
        ∃ k' e, (k', Val.dict e) ∈ items (.cons k v rest) ∧ Plain k' ∧ getItem e parts a = .ok (some x) := by
      rintro ⟨k', e, hm, hr⟩
      exact ⟨k', e, by simp [items, hm], hr⟩
    split at h
    · exact lift (ih h)
    · rename_i hk
      push Not at hk
      split at h
      · exact lift (ih h)
      · rename_i e
        split at h
        · exact absurd h (by simp)
        · rename_i y hy
          obtain rfl := Option.some.inj (Except.ok.inj h)
          exact ⟨k, e, by simp [items], hk, hy⟩
        · exact lift (ih h)

/-- A scan in which no search finds anything finds nothing. -/
theorem scanItems_none {d : Dict} {parts : List Str} {a : Bool}
    (h : ∀ k e, (k, Val.dict e) ∈ items d → Plain k → getItem e parts a = .ok none) :
    scanItems d parts a = .ok none := by
  induction d using Dict.rec (motive_1 := fun _ => True) with
  | leaf => trivial
  | dict => trivial
  | nil => rw [scanItems]
  | cons k v rest _ ih =>
    have ih' := ih fun k e hm => h k e (by simp [items, hm])
    rw [scanItems.eq_def]
    dsimp only
    split
    · exact ih'
    · rename_i hk
      push Not at hk
      split
      · exact ih'
      · rename_i e
        rw [h k e (by simp [items]) hk]
        exact ih'

/-- A scan in which every search either finds `x` or nothing, and one finds `x`, finds `x`. -/
theorem scanItems_found {d : Dict} {parts : List Str} {a : Bool} {x : Val}
    (h : ∀ k e, (k, Val.dict e) ∈ items d → Plain k → getItem e parts a = .ok none ∨ getItem e parts a = .ok (some x))
    (hex : ∃ k e, (k, Val.dict e) ∈ items d ∧ Plain k ∧ getItem e parts a = .ok (some x)) :
    scanItems d parts a = .ok (some x) := by
  induction d using Dict.rec (motive_1 := fun _ => True) with
  | leaf => trivial
  | dict => trivial
  | nil => obtain ⟨k, e, hm, _⟩ := hex; simp [items] at hm
  | cons k v rest _ ih =>
    have ih' := ih fun k e hm => h k e (by simp [items, hm])
    obtain ⟨k', e', hm, hp, hf⟩ := hex
    rw [items, List.mem_cons] at hm
    rw [scanItems.eq_def]
    dsimp only
    split
    · rename_i hk
      rcases hm with hm | hm
      · obtain ⟨rfl, -⟩ := Prod.mk.inj hm
        exact absurd hk (not_or.2 hp)
      · exact ih' ⟨k', e', hm, hp, hf⟩
    · rename_i hk
      push Not at hk
      split
      · rcases hm with hm | hm
        · exact absurd (Prod.mk.inj hm).2 (by simp)
        · exact ih' ⟨k', e', hm, hp, hf⟩
      · rename_i e
        rcases h k e (by simp [items]) hk with h0 | h0
        · rw [h0]
          rcases hm with hm | hm
          · obtain ⟨-, h2⟩ := Prod.mk.inj hm
            injection h2 with h2
            subst h2
            rw [h0] at hf
            exact absurd (Except.ok.inj hf) (by simp)
          · exact ih' ⟨k', e', hm, hp, hf⟩
        · rw [h0]

/-- Soundness of the search: a value that is returned is the content of a node with the requested name. -/
theorem getItem_sound {d : Dict} {k : Str} {ks : List Str} {a : Bool} {x : Val} (hp : ∀ p ∈ k :: ks, Plain p)
    (h : getItem d (k :: ks) a = .ok (some x)) : ∃ e, Below d e ∧ Holds e (k :: ks) a x := by
  induction hn : sizeOf d using Nat.strong_induction_on generalizing d with
  | _ n ih =>
    subst hn
    have scan : ∀ d' : Dict, sizeOf d' ≤ sizeOf d → scanItems d' (k :: ks) a = .ok (some x) →
        ∃ e, Below d' e ∧ Holds e (k :: ks) a x := by
      intro d' hle hs
      obtain ⟨k', e, hm, hk', hg⟩ := scanItems_some hs
      have hlt := sizeOf_mem_items hm
      rw [Val.dict.sizeOf_spec] at hlt
      obtain ⟨f, hf, hh⟩ := ih (sizeOf e) (by omega) hg rfl
      exact ⟨f, .step hm hk' hf, hh⟩
    rw [getItem] at h
    split at h
    · split at h
      · exact absurd (Except.ok.inj h) (by simp)
      · exact absurd h (by simp)
      · exact absurd h (by simp)
      · rename_i e hf
        have hlt := sizeOf_follow_cons hf
        have hw := walk_of_follow hf
        split at h
        · rename_i v hv
          obtain rfl := Option.some.inj (Except.ok.inj h)
          exact ⟨d, .refl _, e, hw, hv⟩
        · obtain ⟨f, hf', hh⟩ := scan e (by omega) h
          exact ⟨f, (below_of_walk hp hw).trans hf', hh⟩
    · exact scan d (le_refl _) h

/-- Nothing with that name: nothing is returned. -/
theorem getItem_absent {d : Dict} {k : Str} {ks : List Str} {a : Bool}
    (h : ∀ e, Below d e → e.get? k = none) : getItem d (k :: ks) a = .ok none := by
  induction hn : sizeOf d using Nat.strong_induction_on generalizing d with
  | _ n ih =>
    subst hn
    rw [getItem, if_neg (by rw [Dict.has, h d (.refl _)]; simp)]
    refine scanItems_none fun k' e hm hk' => ?_
    have hlt := sizeOf_mem_items hm
    rw [Val.dict.sizeOf_spec] at hlt
    exact ih (sizeOf e) (by omega) (fun f hf => h f (.step hm hk' hf)) rfl

/-- Completeness of the search: if the name occurs and every occurrence holds `x`, then `x` is returned. -/
theorem getItem_found {d : Dict} {k : Str} {ks : List Str} {a : Bool} {x : Val}
    (hall : ∀ e, Below d e → e.get? k ≠ none → Holds e (k :: ks) a x)
    (hex : ∃ e, Below d e ∧ e.get? k ≠ none) : getItem d (k :: ks) a = .ok (some x) := by
  induction hn : sizeOf d using Nat.strong_induction_on generalizing d with
  | _ n ih =>
    subst hn
    rw [getItem]
    split
    · rename_i hk
      obtain ⟨f, hw, hf⟩ := hall d (.refl _) (by
        intro h0; rw [Dict.has, h0] at hk; simp at hk)
      have hfol := follow_of_walk hw
      split
      · rename_i h; rw [hfol] at h; exact absurd h (by simp)
      · rename_i h; rw [hfol] at h; exact absurd h (by simp)
      · rename_i h; rw [hfol] at h; exact absurd (Except.ok.inj h) (by simp)
      · rename_i e h
        rw [hfol] at h
        injection (Except.ok.inj h) with h
        subst h
        rw [← slot_eq_wanted, hf]
    · rename_i hk
      have hk' : d.get? k = none := by simpa [Dict.has] using hk
      obtain ⟨e, he, hek⟩ := hex
      have sub : ∀ k' e', (k', Val.dict e') ∈ items d → Plain k' → (∃ f, Below e' f ∧ f.get? k ≠ none) →
          getItem e' (k :: ks) a = .ok (some x) := by
        intro k' e' hm hp hex'
        have hlt := sizeOf_mem_items hm
        rw [Val.dict.sizeOf_spec] at hlt
        exact ih (sizeOf e') (by omega) (fun f hf => hall f (.step hm hp hf)) hex' rfl
      refine scanItems_found (fun k' e' hm hp => ?_) ?_
      · by_cases hx : ∃ f, Below e' f ∧ f.get? k ≠ none
        · exact .inr (sub k' e' hm hp hx)
        · push Not at hx
          exact .inl (getItem_absent hx)
      · cases he with
        | refl => exact absurd hk' hek
        | step hm hp hb => exact ⟨_, _, hm, hp, sub _ _ hm hp ⟨e, hb, hek⟩⟩

theorem items_erase (d : Dict) (q : Str) : items (d.erase q) = (items d).filter fun kv => decide (kv.1 ≠ q) := by
  induction d using Dict.rec (motive_1 := fun _ => True) with
  | leaf => trivial
  | dict => trivial
  | nil => rfl
  | cons k v rest _ ih =>
    rw [Dict.erase, items]
    by_cases hk : k = q
    · rw [if_pos hk, ih, List.filter_cons_of_neg (by simp [hk])]
    · rw [if_neg hk, List.filter_cons_of_pos (by simp [hk]), items, ih]

theorem ofItems_items (d : Dict) : ofItems (items d) = d := by
  induction d using Dict.rec (motive_1 := fun _ => True) with
  | leaf => trivial
  | dict => trivial
  | nil => rfl
  | cons k v rest _ ih => rw [items, ofItems, ih]

theorem items_ofItems (l : List (Str × Val)) : items (ofItems l) = l := by
  induction l with
  | nil => rfl
  | cons kv l ih => rw [ofItems, items, ih]

theorem get?_erase (d : Dict) (q k : Str) : (d.erase q).get? k = if k = q then none else d.get? k := by
  induction d using Dict.rec (motive_1 := fun _ => True) with
  | leaf => trivial
  | dict => trivial
  | nil => simp [Dict.erase, Dict.get?]
  | cons k' v rest _ ih =>
    rw [Dict.erase]
    by_cases hk : k' = q
    · rw [if_pos hk, ih, Dict.get?]
      by_cases h : k = q
      · rw [if_pos h, if_pos h]
      · rw [if_neg h, if_neg h, if_neg (by rintro rfl; exact h hk)]
    · rw [if_neg hk, Dict.get?, Dict.get?, ih]
      by_cases h : k' = k
      · rw [if_pos h, if_pos h, if_neg (by rintro rfl; exact hk h)]
      · rw [if_neg h, if_neg h]

/-- The code drops exactly the logs. -/
theorem dropLogs_eq (d : Dict) : dropLogs d = nexusPart d := by
  rw [← ofItems_items (dropLogs d), dropLogs, items_erase, items_erase, List.filter_filter, nexusPart]
  congr 1
  refine List.filter_congr fun kv _ => ?_
  rw [Bool.eq_iff_iff]
  simp only [Bool.and_eq_true, decide_eq_true_eq]
  exact and_comm

theorem nexusPart_nexusPart (d : Dict) : nexusPart (nexusPart d) = nexusPart d := by
  unfold nexusPart
  rw [items_ofItems, List.filter_filter]
  simp only [Bool.and_self]

theorem get?_nexusPart (d : Dict) (k : Str) (h : k ≠ "SPICElogs".toList ∧ k ≠ "DASlogs".toList) :
    (nexusPart d).get? k = d.get? k := by
  rw [← dropLogs_eq, dropLogs, get?_erase, get?_erase, if_neg (show k ≠ kDas from h.2), if_neg (show k ≠ kSpice from h.1)]

theorem get?_nexusPart_log (d : Dict) (k : Str) (h : k = "SPICElogs".toList ∨ k = "DASlogs".toList) :
    (nexusPart d).get? k = none := by
  rw [← dropLogs_eq, dropLogs, get?_erase, get?_erase]
  rcases h with h | h
  · by_cases h' : k = kDas
    · rw [if_pos h']
    · rw [if_neg h', if_pos (show k = kSpice from h)]
  · rw [if_pos (show k = kDas from h)]

/-- The entry after a history of look-ups. -/
def afterReads (d : Dict) (qs : List (Str × Bool)) : Dict := qs.foldl (fun e q => (nxGet e q.1 q.2).2) d

theorem afterReads_cons (d : Dict) (q : Str × Bool) (qs : List (Str × Bool)) :
    afterReads d (q :: qs) = nexusPart d := by
  have key : ∀ (qs : List (Str × Bool)) (d : Dict), nexusPart d = d → afterReads d qs = d := by
    intro qs
    induction qs with
    | nil => intro d _; rfl
    | cons q qs ih =>
      intro d hd
      have : (nxGet d q.1 q.2).2 = d := by rw [nxGet, dropLogs_eq, hd]
      rw [afterReads, List.foldl_cons, this]
      exact ih d hd
  rw [afterReads, List.foldl_cons]
  have : (nxGet d q.1 q.2).2 = nexusPart d := by rw [nxGet, dropLogs_eq]
  rw [this]
  exact key qs _ (nexusPart_nexusPart d)

/-- **C42**: a look-up returns the same value whatever was looked up before. -/
theorem C42_history (d : Dict) (qs : List (Str × Bool)) (key : Str) (attrs : Bool) :
    (nxGet (afterReads d qs) key attrs).1 = (nxGet d key attrs).1 := by
  cases qs with
  | nil => rfl
  | cons q qs =>
    rw [afterReads_cons, nxGet, nxGet, dropLogs_eq, dropLogs_eq, nexusPart_nexusPart]

/-- **C42**: the logs have no influence on what is found. -/
theorem C42_ignores_logs (d e : Dict) (h : nexusPart d = nexusPart e) (key : Str) (attrs : Bool) :
    (nxGet d key attrs).1 = (nxGet e key attrs).1 := by
  rw [nxGet, nxGet, dropLogs_eq, dropLogs_eq, h]

/-- The path addressed by a key: `"a/b"` is `["a", "b"]`; the data of a detector, monitor or sample sits one level
deeper. -/
def Spec.path (key : Str) (attrs : Bool) : List Str :=
  if attrs = false ∧ key = "detector".toList then ["detector".toList, "data".toList]
  else if attrs = false ∧ key = "monitor".toList then ["monitor".toList, "monitor".toList]
  else if attrs = false ∧ key = "sample".toList then ["sample".toList, "sample".toList]
  else splitChar '/' key

theorem split_special (key : Str) (attrs : Bool) : splitChar '/' (specialKey key attrs) = Spec.path key attrs := by
  cases attrs with
  | true => simp [specialKey, Spec.path]
  | false =>
    unfold specialKey Spec.path
    by_cases h1 : key = "detector".toList
    · subst h1; decide
    by_cases h2 : key = "monitor".toList
    · subst h2; decide
    by_cases h3 : key = "sample".toList
    · subst h3; decide
    rw [if_neg (by simp), if_neg h1, if_neg h2, if_neg h3, if_neg (fun h => h1 h.2), if_neg (fun h => h2 h.2),
      if_neg (fun h => h3 h.2)]

theorem nxGet_fst (d : Dict) (key : Str) (attrs : Bool) :
    (nxGet d key attrs).1 = getItem (nexusPart d) (Spec.path key attrs) attrs := by
  rw [nxGet, dropLogs_eq, split_special]

/-- **C42**: if the requested name occurs outside the logs and every occurrence holds the value `x`, the look-up returns
`x`, after any history of look-ups. -/
theorem C42_found (d : Dict) (qs : List (Str × Bool)) (key : Str) (attrs : Bool) (k : Str) (ks : List Str) (x : Val)
    (hkey : Spec.path key attrs = k :: ks)
    (hall : ∀ e, Below (nexusPart d) e → e.get? k ≠ none → Holds e (k :: ks) attrs x)
    (hex : ∃ e, Below (nexusPart d) e ∧ e.get? k ≠ none) :
    (nxGet (afterReads d qs) key attrs).1 = .ok (some x) := by
  rw [C42_history, nxGet_fst, hkey]
  exact getItem_found hall hex

/-- **C42**: if the requested name does not occur outside the logs nothing is returned, even if a log has it. -/
theorem C42_absent (d : Dict) (qs : List (Str × Bool)) (key : Str) (attrs : Bool) (k : Str) (ks : List Str)
    (hkey : Spec.path key attrs = k :: ks)
    (h : ∀ e, Below (nexusPart d) e → e.get? k = none) :
    (nxGet (afterReads d qs) key attrs).1 = .ok none := by
  rw [C42_history, nxGet_fst, hkey]
  exact getItem_absent h

/-- **C42**: whatever a look-up returns is stored in the entry, outside the logs, in a node with the requested name. -/
theorem C42_sound (d : Dict) (qs : List (Str × Bool)) (key : Str) (attrs : Bool) (k : Str) (ks : List Str) (x : Val)
    (hkey : Spec.path key attrs = k :: ks) (hp : ∀ p ∈ k :: ks, Plain p)
    (h : (nxGet (afterReads d qs) key attrs).1 = .ok (some x)) :
    ∃ e, Below (nexusPart d) e ∧ Holds e (k :: ks) attrs x := by
  rw [C42_history, nxGet_fst, hkey] at h
  exact getItem_sound hp h

/-- **C42** (partial): look-ups change nothing in the entry outside its logs. Missing: the logs themselves do not survive,
see `C42_logs_lost`. -/
theorem C42_kept_partial (d : Dict) (qs : List (Str × Bool)) (k : Str)
    (h : k ≠ "SPICElogs".toList ∧ k ≠ "DASlogs".toList) : (afterReads d qs).get? k = d.get? k := by
  cases qs with
  | nil => rfl
  | cons q qs => rw [afterReads_cons, get?_nexusPart d k h]

/-- A log stores `x` under `key`. -/
def Spec.LogHas (d : Dict) (log key : Str) (x : Val) : Prop :=
  ∃ l e, d.get? log = some (.dict l) ∧ l.get? key = some (.dict e) ∧ e.get? "dataset".toList = some x

/-- **C42**: the logs can be read before any look-up (with both logs present the second one is used). -/
theorem C42_logs_first (d : Dict) (key : Str) (x : Val)
    (h : Spec.LogHas d "DASlogs".toList key x ∨
      (d.get? "DASlogs".toList = none ∧ Spec.LogHas d "SPICElogs".toList key x)) :
    dataFromLogs d key = .ok (some x) := by
  rcases h with ⟨l, e, h1, h2, h3⟩ | ⟨h0, l, e, h1, h2, h3⟩
  · have hf : findLogs d = .ok (.dict l) := by rw [findLogs, show d.get? kDas = some (.dict l) from h1]
    rw [dataFromLogs, hf]
    simp only [bind, Except.bind, h2, Val.index, show e.get? kDataset = some x from h3, need]
    rfl
  · have hf : findLogs d = .ok (.dict l) := by
      rw [findLogs, show d.get? kDas = none from h0]
      dsimp only
      rw [show d.get? kSpice = some (.dict l) from h1]
    rw [dataFromLogs, hf]
    simp only [bind, Except.bind, h2, Val.index, show e.get? kDataset = some x from h3, need]
    rfl

/-- **C42**, the code disagrees: after one look-up of anything the logs are gone, and reading them raises
`UnboundLocalError`, whatever the entry contained. -/
theorem C42_logs_lost (d : Dict) (q : Str × Bool) (qs : List (Str × Bool)) (key : Str) :
    (afterReads d (q :: qs)).get? "SPICElogs".toList = none ∧ (afterReads d (q :: qs)).get? "DASlogs".toList = none ∧
    dataFromLogs (afterReads d (q :: qs)) key = .error .unboundLocal ∧
    metaFromLogs (afterReads d (q :: qs)) key = .error .unboundLocal := by
  rw [afterReads_cons]
  have h1 := get?_nexusPart_log d "SPICElogs".toList (.inl rfl)
  have h2 := get?_nexusPart_log d "DASlogs".toList (.inr rfl)
  have hf : findLogs (nexusPart d) = .error .unboundLocal := by
    rw [findLogs, show (nexusPart d).get? kDas = none from h2]
    dsimp only
    rw [show (nexusPart d).get? kSpice = none from h1]
  refine ⟨h1, h2, ?_, ?_⟩
  · rw [dataFromLogs, hf]; rfl
  · rw [metaFromLogs, hf]; rfl

/-! ## A concrete entry -/

namespace Demo

/-- `{"dataset": v}`. -/
def ds (v : Leaf) : Val := .dict (.cons kDataset (.leaf v) .nil)

/-- An entry with a motor, a detector and a SPICE log that also has the motor. -/
def entry : Dict :=
  .cons "SPICElogs".toList (.dict (.cons "s1".toList (ds (.num 7)) .nil)) <|
  .cons "instrument".toList (.dict <|
    .cons "goniometer".toList (.dict (.cons "s1".toList (ds (.num 3)) .nil)) <|
    .cons "detector".toList (.dict (.cons "data".toList (ds (.num 5)) .nil)) .nil) .nil

/-- A log reading is available at first... -/
example : dataFromLogs entry "s1".toList = .ok (some (.leaf (.num 7))) :=
  C42_logs_first _ _ _ (.inr ⟨rfl, _, _, rfl, rfl, rfl⟩)

/-- ...and raises after a look-up. -/
example : dataFromLogs (afterReads entry [("s1".toList, false)]) "s1".toList = .error .unboundLocal :=
  (C42_logs_lost entry _ [] _).2.2.1

theorem entry_below (e : Dict) (h : Below (nexusPart entry) e) (hs : e.get? "s1".toList ≠ none) :
    Holds e ["s1".toList] false (.leaf (.num 3)) := by
  have hn : nexusPart entry = .cons "instrument".toList (.dict <|
    .cons "goniometer".toList (.dict (.cons "s1".toList (ds (.num 3)) .nil)) <|
    .cons "detector".toList (.dict (.cons "data".toList (ds (.num 5)) .nil)) .nil) .nil := rfl
  rw [hn] at h
  have leafy : ∀ {v e}, Below (.cons kDataset (.leaf v) .nil) e → e = .cons kDataset (.leaf v) .nil := by
    intro v e h
    cases h with
    | refl => rfl
    | step hm => simp [items] at hm
  cases h with
  | refl => exact absurd rfl hs
  | step hm _ hb =>
    simp only [items, List.mem_cons, List.not_mem_nil, or_false, Prod.mk.injEq, Val.dict.injEq] at hm
    obtain ⟨-, rfl⟩ := hm
    cases hb with
    | refl => exact absurd rfl hs
    | step hm _ hb =>
      simp only [items, List.mem_cons, List.not_mem_nil, or_false, Prod.mk.injEq, Val.dict.injEq] at hm
      rcases hm with ⟨-, rfl⟩ | ⟨-, rfl⟩
      · cases hb with
        | refl => exact ⟨_, rfl, rfl⟩
        | step hm _ hb =>
          simp only [items, ds, List.mem_cons, List.not_mem_nil, or_false, Prod.mk.injEq, Val.dict.injEq] at hm
          obtain ⟨-, rfl⟩ := hm
          rw [leafy hb] at hs
          exact absurd rfl hs
      · cases hb with
        | refl => exact absurd rfl hs
        | step hm _ hb =>
          simp only [items, ds, List.mem_cons, List.not_mem_nil, or_false, Prod.mk.injEq, Val.dict.injEq] at hm
          obtain ⟨-, rfl⟩ := hm
          rw [leafy hb] at hs
          exact absurd rfl hs

/-- The look-up finds the motor of the instrument, not the one of the log. -/
example (qs : List (Str × Bool)) : (nxGet (afterReads entry qs) "s1".toList false).1 = .ok (some (.leaf (.num 3))) :=
  C42_found entry qs _ _ "s1".toList [] _ (by decide) entry_below
    ⟨.cons "s1".toList (ds (.num 3)) .nil,
      .step (k := "instrument".toList) (by left) (by constructor <;> decide)
        (.step (k := "goniometer".toList) (by left) (by constructor <;> decide) (.refl _)), by intro h; cases h⟩

end Demo

end Tavi
