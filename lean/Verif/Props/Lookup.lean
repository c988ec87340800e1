import Verif.Props.Norm
import Verif.Props.DatasetName

/-!
# What is looked up in an entry that was written and read (C81)
-/

namespace Tavi

open Spec

/-! ## The members of the plot group do not disturb a look-up -/

/-- A group that only has bare datasets. -/
def Bare (M : Dict) : Prop := ∀ k v, (k, v) ∈ items M → ∃ w, v = .dict (bareDs w)

theorem bare_item {k : Str} {ks : List Str} (hk : k ≠ kDataset) (v : Leaf) : getItem (bareDs v) (k :: ks) false = .ok none := by
  rw [item_absent (by rw [bareDs, Dict.has, Dict.get?, if_neg (Ne.symm hk)]; simp [Dict.get?]), bareDs, scanItems.eq_def]
  dsimp only
  rw [if_pos (.inr rfl), scanItems.eq_def]

theorem bare_scan {M : Dict} (hM : Bare M) {k : Str} {ks : List Str} (hk : k ≠ kDataset) :
    scanItems M (k :: ks) false = .ok none := by
  induction M using Dict.rec (motive_1 := fun _ => True) with
  | leaf => trivial
  | dict => trivial
  | nil => rw [scanItems.eq_def]
  | cons k' v rest _ ih =>
    have hr := ih fun k v h => hM k v (by rw [items]; exact List.mem_cons_of_mem _ h)
    obtain ⟨w, rfl⟩ := hM k' v (by rw [items]; exact List.mem_cons_self)
    rw [scanItems.eq_def]
    dsimp only
    split
    · exact hr
    · rw [bare_item hk]; exact hr

/-- A path of several names is not in such a group. -/
theorem bare_path {M : Dict} (hM : Bare M) {k k' : Str} {ks : List Str} (hk : k ≠ kDataset) (hk' : k' ≠ kDataset) :
    getItem M (k :: k' :: ks) false = .ok none := by
  by_cases hh : M.has k = true
  · rw [Dict.has] at hh
    obtain ⟨v, hv⟩ := Option.isSome_iff_exists.1 hh
    obtain ⟨w, rfl⟩ := hM k v (mem_items_of_get? hv)
    rw [item_error (e := .keyError) hh, if_pos rfl]
    rw [follow, Val.index, hv, need_some, py_bind_ok, follow, Val.index, bareDs, Dict.get?, if_neg (Ne.symm hk')]
    rfl
  · rw [item_absent hh, bare_scan hM hk]

theorem bare_absent {M : Dict} (hM : Bare M) {k : Str} {ks : List Str} (hk : k ≠ kDataset) (h : M.get? k = none) :
    getItem M (k :: ks) false = .ok none := by
  rw [item_absent (by rw [Dict.has, h]; simp), bare_scan hM hk]

theorem bare_hit {M : Dict} {k : Str} {v : Leaf} (h : M.get? k = some (.dict (bareDs v))) :
    getItem M [k] false = .ok (some (.leaf (readLeaf v))) := by
  rw [item_dict (by rw [Dict.has, h]; rfl) (by rw [follow, Val.index, h, need_some, py_bind_ok, follow])]
  rfl

theorem getItem_nil (k : Str) (ks : List Str) : getItem .nil (k :: ks) false = .ok none := by
  rw [item_absent (by simp [Dict.has, Dict.get?]), scanItems.eq_def]

theorem scan_cons (k' : Str) (v : Val) (R : Dict) (parts : List Str) (b : Bool) : scanItems (.cons k' v R) parts b =
    if k' = kAttrs ∨ k' = kDataset then scanItems R parts b
    else match v with
      | .leaf _ => scanItems R parts b
      | .dict e => match getItem e parts b with
        | .error err => .error err
        | .ok (some x) => .ok (some x)
        | .ok none => scanItems R parts b := by
  rw [scanItems.eq_def]
  dsimp only
  cases v <;> rfl

/-- Filling the empty group `data`. -/
theorem scan_fill {D M : Dict} {k : Str} {ks : List Str} (hn : D.keys.Nodup) (hD : D.get? kData = some (.dict .nil))
    (hM : getItem M (k :: ks) false = .ok none ∨
      ∃ x, getItem M (k :: ks) false = .ok (some x) ∧ scanItems D (k :: ks) false = .ok (some x)) :
    scanItems (D.set kData (.dict M)) (k :: ks) false = scanItems D (k :: ks) false := by
  induction D using Dict.rec (motive_1 := fun _ => True) with
  | leaf => trivial
  | dict => trivial
  | nil => exact absurd hD (by simp [Dict.get?])
  | cons k' v rest _ ih =>
    rw [Dict.keys, List.nodup_cons] at hn
    rw [Dict.get?] at hD
    rw [Dict.set]
    by_cases hk : k' = kData
    · rw [if_pos hk] at hD ⊢
      obtain rfl := Option.some.inj hD
      have hns : ¬ (k' = kAttrs ∨ k' = kDataset) := by rw [hk]; exact by decide
      have e1 : scanItems (.cons k' (.dict .nil) rest) (k :: ks) false = scanItems rest (k :: ks) false := by
        rw [scanItems.eq_def]; dsimp only; rw [if_neg hns, getItem_nil]
      rw [e1] at hM ⊢
      rw [scanItems.eq_def]
      dsimp only
      rw [if_neg hns]
      rcases hM with h | ⟨x, h1, h2⟩
      · rw [h]
      · rw [h1, h2]
    · rw [if_neg hk] at hD ⊢
      rw [scan_cons] at hM ⊢
      rw [scan_cons]
      by_cases hs : k' = kAttrs ∨ k' = kDataset
      · rw [if_pos hs] at hM ⊢
        rw [if_pos hs]
        exact ih hn.2 hD hM
      · rw [if_neg hs] at hM ⊢
        rw [if_neg hs]
        cases v with
        | leaf a => exact ih hn.2 hD hM
        | dict e =>
          dsimp only at hM ⊢
          cases hg : getItem e (k :: ks) false with
          | error err => rfl
          | ok o =>
            cases o with
            | some x => rfl
            | none =>
              rw [hg] at hM
              exact ih hn.2 hD hM

theorem getItem_fill {D M : Dict} {k : Str} {ks : List Str} (hn : D.keys.Nodup) (hD : D.get? kData = some (.dict .nil))
    (hk : k ≠ kData)
    (hM : getItem M (k :: ks) false = .ok none ∨
      ∃ x, getItem M (k :: ks) false = .ok (some x) ∧ getItem D (k :: ks) false = .ok (some x)) :
    getItem (D.set kData (.dict M)) (k :: ks) false = getItem D (k :: ks) false := by
  have hg : (D.set kData (.dict M)).get? k = D.get? k := by rw [get?_set, if_neg (Ne.symm hk)]
  have hh : (D.set kData (.dict M)).has k = D.has k := by rw [Dict.has, hg, Dict.has]
  have hf : follow (.dict (D.set kData (.dict M))) (k :: ks) = follow (.dict D) (k :: ks) := by
    rw [follow, follow, Val.index, Val.index, hg]
  by_cases h : D.has k = true
  · have h' : (D.set kData (.dict M)).has k = true := by rw [hh, h]
    cases hc : follow (.dict D) (k :: ks) with
    | error e => rw [item_error h hc, item_error h' (hf.trans hc)]
    | ok v => cases v with
      | leaf a => rw [item_leaf h hc, item_leaf h' (hf.trans hc)]
      | dict e => rw [item_dict h hc, item_dict h' (hf.trans hc)]
  · have h' : ¬ (D.set kData (.dict M)).has k = true := by rw [hh]; exact h
    rw [item_absent h', item_absent h]
    rw [item_absent h] at hM
    exact scan_fill hn hD hM

end Tavi
