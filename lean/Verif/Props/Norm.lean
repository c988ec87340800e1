import Verif.Props.PlotLink

/-!
# What a look-up of data depends on

`norm` removes all attributes of an entry and writes its texts as they are read from a file; `getItem` of data only depends on
that.
-/

namespace Tavi

open Spec

mutual
/-- A value without attributes. -/
def normV : Val → Val
  | .leaf v => .leaf (readLeaf v)
  | .dict d => .dict (norm d)
/-- An entry without attributes. -/
def norm : Dict → Dict
  | .nil => .nil
  | .cons k v rest => if k = kAttrs then norm rest else .cons k (normV v) (norm rest)
end

theorem norm_cons {k : Str} (hk : k ≠ kAttrs) (v : Val) (rest : Dict) : norm (.cons k v rest) = .cons k (normV v) (norm rest) := by
  rw [norm, if_neg hk]

theorem get?_norm (d : Dict) {k : Str} (hk : k ≠ kAttrs) : (norm d).get? k = (d.get? k).map normV := by
  induction d using Dict.rec (motive_1 := fun _ => True) with
  | leaf => trivial
  | dict => trivial
  | nil => rfl
  | cons k' v rest _ ih =>
    rw [norm, Dict.get?]
    split
    · rename_i h
      rw [if_neg (by rw [h]; exact Ne.symm hk), ih]
    · rw [Dict.get?]
      split
      · rfl
      · exact ih

theorem has_norm (d : Dict) {k : Str} (hk : k ≠ kAttrs) : (norm d).has k = d.has k := by
  rw [Dict.has, Dict.has, get?_norm d hk]; cases d.get? k <;> rfl

theorem follow_norm (v : Val) (ks : List Str) (hk : ∀ k ∈ ks, k ≠ kAttrs) : follow (normV v) ks = (follow v ks).map normV := by
  induction ks generalizing v with
  | nil => rfl
  | cons k ks ih =>
    rw [follow, follow]
    cases v with
    | leaf a => rfl
    | dict d =>
      rw [normV, Val.index, Val.index, get?_norm d (hk k (by simp))]
      cases d.get? k with
      | none => rfl
      | some u =>
        rw [Option.map_some, need_some, need_some, py_bind_ok, py_bind_ok, ih u fun k' h => hk k' (by simp [h])]

theorem item_error {d : Dict} {k : Str} {ks : List Str} {b : Bool} {e : PyErr} (hh : d.has k = true)
    (h : follow (.dict d) (k :: ks) = .error e) :
    getItem d (k :: ks) b = if e = .keyError then .ok none else .error e := by
  rw [getItem, if_pos hh]
  split
  · rename_i h'; rw [h] at h'; rw [if_pos (Except.error.inj h')]
  · rename_i e' hn h'
    rw [h] at h'
    rw [Except.error.inj h', if_neg hn]
  · rename_i h'; rw [h] at h'; cases h'
  · rename_i h'; rw [h] at h'; cases h'

theorem item_leaf {d : Dict} {k : Str} {ks : List Str} {b : Bool} {a : Leaf} (hh : d.has k = true)
    (h : follow (.dict d) (k :: ks) = .ok (.leaf a)) : getItem d (k :: ks) b = .error .typeError := by
  rw [getItem, if_pos hh]
  split
  · rename_i h'; rw [h] at h'; cases h'
  · rename_i h'; rw [h] at h'; cases h'
  · rfl
  · rename_i h'; rw [h] at h'; cases h'

theorem item_dict {d : Dict} {k : Str} {ks : List Str} {b : Bool} {e : Dict} (hh : d.has k = true)
    (h : follow (.dict d) (k :: ks) = .ok (.dict e)) :
    getItem d (k :: ks) b = match e.get? (wanted b) with
      | some v => .ok (some v)
      | none => scanItems e (k :: ks) b := by
  rw [getItem, if_pos hh]
  split
  · rename_i h'; rw [h] at h'; cases h'
  · rename_i h'; rw [h] at h'; cases h'
  · rename_i h'; rw [h] at h'; cases h'
  · rename_i h'; rw [h] at h'; cases h'; rfl

theorem item_absent {d : Dict} {k : Str} {ks : List Str} {b : Bool} (hh : ¬ d.has k = true) :
    getItem d (k :: ks) b = scanItems d (k :: ks) b := by
  rw [getItem, if_neg hh]

/-- The look-up of data in an entry without its attributes. -/
theorem getItem_norm_aux (N : ℕ) : ∀ d : Dict, sizeOf d < N → ∀ parts : List Str, (∀ k ∈ parts, k ≠ kAttrs) →
    getItem (norm d) parts false = (getItem d parts false).map (Option.map normV) ∧
    scanItems (norm d) parts false = (scanItems d parts false).map (Option.map normV) := by
  induction N with
  | zero => intro d h; omega
  | succ N ih =>
    have hscan : ∀ d : Dict, sizeOf d < N + 1 → ∀ parts : List Str, (∀ k ∈ parts, k ≠ kAttrs) →
        scanItems (norm d) parts false = (scanItems d parts false).map (Option.map normV) := by
      intro d
      induction d using Dict.rec (motive_1 := fun _ => True) with
      | leaf => trivial
      | dict => trivial
      | nil => intro _ parts _; rw [norm, scanItems.eq_def]; rfl
      | cons k v rest _ ih' =>
        intro hs parts hp
        rw [Dict.cons.sizeOf_spec] at hs
        have hr := ih' (by omega) parts hp
        rw [scanItems.eq_def (.cons k v rest)]
        dsimp only
        by_cases hk : k = kAttrs
        · rw [if_pos (.inl hk), norm, if_pos hk, hr]
        · rw [norm_cons hk, scanItems.eq_def]
          dsimp only
          by_cases hk' : k = kDataset
          · rw [if_pos (.inr hk'), if_pos (.inr hk'), hr]
          · rw [if_neg (not_or.2 ⟨hk, hk'⟩), if_neg (not_or.2 ⟨hk, hk'⟩)]
            cases v with
            | leaf a => rw [normV]; exact hr
            | dict e =>
              rw [normV]
              dsimp only
              rw [Val.dict.sizeOf_spec] at hs
              rw [(ih e (by omega) parts hp).1]
              cases hg : getItem e parts false with
              | error err => rfl
              | ok o => cases o with
                | none => exact hr
                | some x => rfl
    intro d hd parts hp
    refine ⟨?_, hscan d hd parts hp⟩
    cases parts with
    | nil => rw [getItem, getItem, hscan d hd [] hp]
    | cons k ks =>
      have hk := hp k (by simp)
      by_cases hh : d.has k = true
      · have hf := follow_norm (.dict d) (k :: ks) hp
        rw [normV] at hf
        cases hc : follow (.dict d) (k :: ks) with
        | error e =>
          rw [hc] at hf
          rw [item_error hh hc, item_error (by rw [has_norm d hk, hh]) hf]
          by_cases he : e = .keyError
          · rw [if_pos he]; rfl
          · rw [if_neg he]; rfl
        | ok v =>
          rw [hc] at hf
          cases v with
          | leaf a => rw [item_leaf hh hc, item_leaf (by rw [has_norm d hk, hh]) hf]; rfl
          | dict e =>
            have hlt := sizeOf_follow_cons hc
            rw [item_dict hh hc, item_dict (by rw [has_norm d hk, hh]) hf, get?_norm e (by decide)]
            cases e.get? (wanted false) with
            | none => exact hscan e (by omega) (k :: ks) hp
            | some x => rfl
      · rw [item_absent hh, item_absent (by rw [has_norm d hk]; exact hh), hscan d hd (k :: ks) hp]

theorem getItem_norm (d : Dict) {parts : List Str} (hp : ∀ k ∈ parts, k ≠ kAttrs) :
    getItem (norm d) parts false = (getItem d parts false).map (Option.map normV) :=
  (getItem_norm_aux (sizeOf d + 1) d (by omega) parts hp).1

/-! ## Files -/

theorem readLeaf_readLeaf (v : Leaf) : readLeaf (readLeaf v) = readLeaf v := by cases v <;> rfl

/-- A dataset without attributes. -/
def bareDs (v : Leaf) : Dict := .cons kDataset (.leaf (readLeaf v)) .nil

/-- A node of a file, as data. -/
def normH (t : H5) : Dict := norm (readNode t)

/-- Members of a file, as data. -/
def normHs (ch : H5s) : Dict := norm (readMembers ch)

theorem normH_group (a : List (Str × Leaf)) (ch : H5s) : normH (.node none a ch) = normHs ch := by
  rw [normH, readNode, norm, if_pos rfl, normHs]

theorem normH_data (v : Leaf) (a : List (Str × Leaf)) (ch : H5s) : normH (.node (some v) a ch) = bareDs v := by
  cases a with
  | nil => rw [normH, readNode, norm_cons (by decide), normV, readLeaf_readLeaf, norm, bareDs]
  | cons x a =>
    rw [normH, readNode]
    · rw [norm, if_pos rfl, norm_cons (by decide), normV, readLeaf_readLeaf, norm, bareDs]
    · intro h; cases h

theorem normHs_nil : normHs .nil = .nil := rfl

theorem normHs_cons {k : Str} (hk : k ≠ kAttrs) (n : H5) (rest : H5s) :
    normHs (.cons k n rest) = .cons k (.dict (normH n)) (normHs rest) := by
  rw [normHs, readMembers, norm_cons hk, normV, normHs, normH]

theorem normHs_attrs (n : H5) (rest : H5s) : normHs (.cons kAttrs n rest) = normHs rest := by
  rw [normHs, readMembers, norm, if_pos rfl, normHs]

theorem normHs_set (ch : H5s) {k : Str} (hk : k ≠ kAttrs) (n : H5) : normHs (ch.set k n) = (normHs ch).set k (.dict (normH n)) := by
  induction ch using H5s.rec (motive_1 := fun _ => True) with
  | node => trivial
  | nil => rw [H5s.set, normHs_cons hk, normHs_nil, Dict.set]
  | cons k' n' rest _ ih =>
    rw [H5s.set]
    split
    · rename_i h
      have hk' : k' ≠ kAttrs := h ▸ hk
      rw [normHs_cons hk', normHs_cons hk', Dict.set, if_pos h]
    · rename_i h
      by_cases hk' : k' = kAttrs
      · subst hk'
        rw [normHs_attrs, normHs_attrs, ih]
      · rw [normHs_cons hk', normHs_cons hk', Dict.set, if_neg h, ih]

theorem Dict.set_same (d : Dict) {k : Str} {v : Val} (h : d.get? k = some v) : d.set k v = d := by
  induction d using Dict.rec (motive_1 := fun _ => True) with
  | leaf => trivial
  | dict => trivial
  | nil => exact absurd h (by simp [Dict.get?])
  | cons k' n' rest _ ih =>
    rw [Dict.get?] at h
    rw [Dict.set]
    split at h
    · rename_i hk; rw [if_pos hk, Option.some.inj h]
    · rename_i hk; rw [if_neg hk, ih h]

theorem Dict.set_set (d : Dict) (k : Str) (m n : Val) : (d.set k m).set k n = d.set k n := by
  induction d using Dict.rec (motive_1 := fun _ => True) with
  | leaf => trivial
  | dict => trivial
  | nil => simp [Dict.set]
  | cons k' n' rest _ ih =>
    rw [Dict.set]
    split
    · rename_i hk; rw [Dict.set, if_pos hk, Dict.set, if_pos hk]
    · rename_i hk; rw [Dict.set, if_neg hk, Dict.set, if_neg hk, ih]

theorem normHs_get (ch : H5s) {k : Str} (hk : k ≠ kAttrs) : (normHs ch).get? k = (ch.get? k).map fun n => .dict (normH n) := by
  induction ch using H5s.rec (motive_1 := fun _ => True) with
  | node => trivial
  | nil => rfl
  | cons k' n rest _ ih =>
    rw [H5s.get?]
    by_cases hk' : k' = kAttrs
    · subst hk'
      rw [normHs_attrs, ih, if_neg (Ne.symm hk)]
    · rw [normHs_cons hk', Dict.get?]
      split
      · rfl
      · exact ih

/-- Attributes do not show. -/
theorem normH_setAttr (t : H5) (k : Str) (w : Leaf) : normH (t.setAttr k w) = normH t := by
  cases t with
  | node v a ch =>
    rw [H5.setAttr]
    cases v with
    | none => rw [normH_group, normH_group]
    | some v => rw [normH_data, normH_data]

theorem normH_modify (f : H5 → H5) (hf : ∀ t, normH (f t) = normH t) (t : H5) (p : List Str) (hp : ∀ k ∈ p, k ≠ kAttrs) :
    normH (t.modify f p) = normH t := by
  induction p generalizing t with
  | nil => rw [H5.modify, hf]
  | cons k p ih =>
    cases t with
    | node v a ch =>
      rw [H5.modify]
      cases hc : ch.get? k with
      | none => rfl
      | some n =>
        dsimp only
        cases v with
        | some v => rw [normH_data, normH_data]
        | none =>
          rw [normH_group, normH_group, normHs_set ch (hp k (by simp)), ih n fun k' h => hp k' (by simp [h]),
            Dict.set_same _ (by rw [normHs_get ch (hp k (by simp)), hc]; rfl)]

/-- A written entry. -/
theorem normHs_kids {d : Dict} (hd : Tidy d) : normHs (kids d) = norm d := by
  induction hd with
  | nil => rfl
  | attrs ha hr hrest ih => rw [kids, if_pos (.inl rfl), norm, if_pos rfl, ih]
  | @data k e v rest hk he hr hrest ih =>
    rw [kids_cons_plain hk, normHs_cons hk.1, norm_cons hk.1, normV, ih, ds_kids he, normH_data]
    congr 2
    obtain ⟨_, rfl | ⟨a, _, rfl | rfl⟩⟩ := he
    · rw [norm_cons (by decide), normV, norm, bareDs]
    · rw [norm_cons (by decide), normV, norm, if_pos rfl, norm, bareDs]
    · rw [norm, if_pos rfl, norm_cons (by decide), normV, norm, bareDs]
  | @group k e rest hk he hr hrest ih1 ih2 =>
    rw [kids_cons_plain hk, normHs_cons hk.1, norm_cons hk.1, normV, ih2, tidy_node he, normH_group, ih1]

theorem normH_nodeOf {d : Dict} (hd : Tidy d) : normH (nodeOf d) = norm d := by
  rw [tidy_node hd, normH_group, normHs_kids hd]

end Tavi
