import Verif.Model.Links
import Verif.Props.Store
import Verif.Lemmas.Numpy

/-!
# The tree written for an entry

`nodeOf d` is the node that writing `d` into a new group makes; `writeDict_tree` proves it.
-/

namespace Tavi

open Spec

/-- A dict of attributes as a list. -/
def attrList : Dict → List (Str × Leaf)
  | .nil => []
  | .cons k (.leaf v) rest => (k, v) :: attrList rest
  | .cons _ (.dict _) rest => attrList rest

/-- The attributes of a group or dataset. -/
def ownAttrs (d : Dict) : List (Str × Leaf) :=
  match d.get? kAttrs with
  | some (.dict m) => attrList m
  | _ => []

mutual
/-- The node of a value. -/
def nodeVal : Val → H5
  | .leaf _ => H5.empty
  | .dict e => .node (dataOf e) (ownAttrs e) (kids e)

/-- The members. -/
def kids : Dict → H5s
  | .nil => .nil
  | .cons k v rest => if k = kAttrs ∨ k = kDataset then kids rest else .cons k (nodeVal v) (kids rest)
end

/-- The node of a dict. -/
def nodeOf (e : Dict) : H5 := .node (dataOf e) (ownAttrs e) (kids e)

theorem nodeVal_dict (e : Dict) : nodeVal (.dict e) = nodeOf e := by rw [nodeVal, nodeOf]

/-- A dataset whose value is stored as it is. -/
def Ds (e : Dict) (v : Leaf) : Prop :=
  formatDataset e = .ok v ∧
  (e = .cons kDataset (.leaf v) .nil ∨
   ∃ a, AttrDict a ∧ (e = .cons kDataset (.leaf v) (.cons kAttrs (.dict a) .nil) ∨
     e = .cons kAttrs (.dict a) (.cons kDataset (.leaf v) .nil)))

/-- A tree of groups and datasets, every name once. -/
inductive Tidy : Dict → Prop
  | nil : Tidy .nil
  | attrs {a rest} : AttrDict a → rest.get? kAttrs = none → Tidy rest → Tidy (.cons kAttrs (.dict a) rest)
  | data {k e v rest} : Plain k → Ds e v → rest.get? k = none → Tidy rest → Tidy (.cons k (.dict e) rest)
  | group {k e rest} : Plain k → Tidy e → rest.get? k = none → Tidy rest → Tidy (.cons k (.dict e) rest)

theorem Tidy.not_has {d : Dict} (h : Tidy d) : d.get? kDataset = none := by
  induction h with
  | nil => rfl
  | attrs _ _ _ ih => rw [Dict.get?, if_neg kAttrs_ne_kDataset, ih]
  | data hk _ _ _ ih => rw [Dict.get?, if_neg hk.2, ih]
  | group hk _ _ _ _ ih => rw [Dict.get?, if_neg hk.2, ih]

theorem data_ds {e : Dict} (h : Data e) : ∃ v, Ds e v := by
  cases h with
  | @bare v hf =>
    exact ⟨v, (storable_fits hf).1, .inl rfl⟩
  | @dataFirst v a ha hf =>
    refine ⟨v, ?_, .inr ⟨a, ha, .inl rfl⟩⟩
    cases a with
    | nil => exact (storable_fits hf).1
    | cons k u rest => exact (formatAs_fits hf).1
  | @attrsFirst v a ha hf =>
    refine ⟨v, ?_, .inr ⟨a, ha, .inr rfl⟩⟩
    cases a with
    | nil => exact (storable_fits hf).1
    | cons k u rest => exact (formatAs_fits hf).1

theorem entry_tidy {d : Dict} (h : Entry d) : Tidy d := by
  induction h with
  | nil => exact .nil
  | attrs ha hr _ ih => exact .attrs ha hr ih
  | data hk he hr _ ih => obtain ⟨v, hv⟩ := data_ds he; exact .data hk hv hr ih
  | group hk _ hr _ ih1 ih2 => exact .group hk ih1 hr ih2

theorem setAttr_new (a : List (Str × Leaf)) (k : Str) (v : Leaf) (h : lookupKey k a = none) :
    setAttr a k v = a ++ [(k, v)] := by
  induction a with
  | nil => rfl
  | cons kv a ih =>
    obtain ⟨k', v'⟩ := kv
    rw [lookupKey] at h
    split at h
    · exact absurd h (by simp)
    · rename_i hne
      rw [setAttr, if_neg hne, ih h]; rfl

theorem writeAttrs_list {m : Dict} (hm : AttrDict m) (v : Option Leaf) (a : List (Str × Leaf)) (ch : H5s)
    (h : ∀ k, m.get? k ≠ none → lookupKey k a = none) :
    writeAttrs m (.node v a ch) = .ok (.node v (a ++ attrList m) ch) := by
  induction hm generalizing a with
  | nil => rw [writeAttrs, attrList, List.append_nil]
  | @cons k u rest hk _ ih =>
    rw [writeAttrs, setAttr_new a k u (h k (by rw [Dict.get?, if_pos rfl]; simp)), ih, attrList, List.append_assoc]
    · rfl
    · intro x hx
      have hne : k ≠ x := fun e => hx (e ▸ hk)
      have hx' := h x (by rw [Dict.get?, if_neg hne]; exact hx)
      induction a with
      | nil => rw [List.nil_append, lookupKey, if_neg hne]; rfl
      | cons kv a iha =>
        obtain ⟨k', v'⟩ := kv
        rw [lookupKey] at hx'
        split at hx'
        · exact absurd hx' (by simp)
        · rename_i hk'
          rw [List.cons_append, lookupKey, if_neg hk']
          refine iha (fun y hy => ?_) hx'
          have := h y hy
          rw [lookupKey] at this
          split at this
          · exact absurd this (by simp)
          · exact this

/-- Members one after the other. -/
def H5s.append : H5s → H5s → H5s
  | .nil, b => b
  | .cons k n rest, b => .cons k n (rest.append b)

theorem H5s.append_nil (a : H5s) : a.append .nil = a := by
  induction a using H5s.rec (motive_1 := fun _ => True) with
  | node => trivial
  | nil => rfl
  | cons k n rest _ ih => rw [H5s.append, ih]

theorem H5s.append_assoc (a b c : H5s) : (a.append b).append c = a.append (b.append c) := by
  induction a using H5s.rec (motive_1 := fun _ => True) with
  | node => trivial
  | nil => rfl
  | cons k n rest _ ih => rw [H5s.append, H5s.append, H5s.append, ih]

theorem H5s.set_new (a : H5s) (k : Str) (n : H5) (h : a.get? k = none) : a.set k n = a.append (.cons k n .nil) := by
  induction a using H5s.rec (motive_1 := fun _ => True) with
  | node => trivial
  | nil => rfl
  | cons k' n' rest _ ih =>
    rw [H5s.get?] at h
    split at h
    · exact absurd h (by simp)
    · rename_i hne
      rw [H5s.set, if_neg hne, H5s.append, ih h]

theorem H5s.erase_new (a : H5s) (k : Str) (h : a.get? k = none) : a.erase k = a := by
  induction a using H5s.rec (motive_1 := fun _ => True) with
  | node => trivial
  | nil => rfl
  | cons k' n' rest _ ih =>
    rw [H5s.get?] at h
    split at h
    · exact absurd h (by simp)
    · rename_i hne
      rw [H5s.erase, if_neg hne, ih h]

theorem H5s.get?_append (a b : H5s) (k : Str) : (a.append b).get? k = (a.get? k).or (b.get? k) := by
  induction a using H5s.rec (motive_1 := fun _ => True) with
  | node => trivial
  | nil => rfl
  | cons k' n' rest _ ih =>
    rw [H5s.append, H5s.get?, H5s.get?]
    split
    · rfl
    · exact ih

theorem ds_get {e : Dict} {v : Leaf} (h : Ds e v) : e.get? kDataset = some (.leaf v) := by
  obtain ⟨_, rfl | ⟨a, _, rfl | rfl⟩⟩ := h
  · rfl
  · rfl
  · rw [Dict.get?, if_neg kAttrs_ne_kDataset]; rfl

theorem writeDict_ds {e : Dict} {v : Leaf} (h : Ds e v) : writeDict e (.node (some v) [] .nil) = .ok (nodeOf e) := by
  obtain ⟨_, rfl | ⟨a, ha, rfl | rfl⟩⟩ := h
  · rw [writeDict, writeItem, if_neg (fun h => kAttrs_ne_kDataset h.symm), py_bind_ok, writeDict]; rfl
  · rw [writeDict, writeItem, if_neg (fun h => kAttrs_ne_kDataset h.symm), py_bind_ok, writeDict, writeItem, if_pos rfl,
      writeAttrs_list ha _ _ _ (fun _ _ => rfl), py_bind_ok, writeDict]
    rfl
  · rw [writeDict, writeItem, if_pos rfl, writeAttrs_list ha _ _ _ (fun _ _ => rfl), py_bind_ok, writeDict, writeItem,
      if_neg (fun h => kAttrs_ne_kDataset h.symm), py_bind_ok, writeDict]
    rfl

theorem kids_cons_plain {k : Str} (hk : Plain k) (e rest : Dict) :
    kids (.cons k (.dict e) rest) = .cons k (nodeOf e) (kids rest) := by
  rw [kids, if_neg (not_or.2 hk), nodeVal_dict]

/-- Writing a tidy tree into a group without members of those names. -/
theorem writeDict_tree {d : Dict} (hd : Tidy d) (A : List (Str × Leaf)) (ch : H5s)
    (hA : d.get? kAttrs ≠ none → A = []) (hch : ∀ k, Plain k → d.get? k ≠ none → ch.get? k = none) :
    writeDict d (.node none A ch) = .ok (.node none (A ++ ownAttrs d) (ch.append (kids d))) := by
  induction hd generalizing A ch with
  | nil => rw [writeDict, kids, H5s.append_nil, show ownAttrs Dict.nil = [] from rfl, List.append_nil]
  | @attrs a rest ha hr hrest ih =>
    obtain rfl := hA (by rw [Dict.get?, if_pos rfl]; simp)
    rw [writeDict, writeItem, if_pos rfl, writeAttrs_list ha _ _ _ (fun _ _ => rfl), py_bind_ok,
      ih _ ch (fun h => absurd hr h) (fun k hk h => hch k hk (by rw [Dict.get?, if_neg (Ne.symm hk.1)]; exact h)),
      kids, if_pos (.inl rfl)]
    have e1 : ownAttrs rest = [] := by rw [ownAttrs, hr]
    have e2 : ownAttrs (.cons kAttrs (.dict a) rest) = attrList a := by rw [ownAttrs, Dict.get?, if_pos rfl]
    rw [e1, e2, List.append_nil]
  | @data k e v rest hk he hr hrest ih =>
    have hnew := hch k hk (by rw [Dict.get?, if_pos rfl]; simp)
    have hhas : e.has kDataset = true := by rw [Dict.has, ds_get he]; rfl
    rw [writeDict, writeItem, if_neg hk.1, if_pos hhas, he.1, py_bind_ok, writeDict_ds he, py_bind_ok, H5.recreate,
      H5s.erase_new ch k hnew, H5s.set_new ch k _ hnew, py_bind_ok, ih, kids_cons_plain hk, H5s.append_assoc]
    · have : ownAttrs (.cons k (.dict e) rest) = ownAttrs rest := by rw [ownAttrs, ownAttrs, Dict.get?, if_neg hk.1]
      rw [this]; rfl
    · exact fun h => hA (by rw [Dict.get?, if_neg hk.1]; exact h)
    · intro k' hk' h
      have hne : k ≠ k' := fun e => h (e ▸ hr)
      rw [H5s.get?_append, hch k' hk' (by rw [Dict.get?, if_neg hne]; exact h), H5s.get?, if_neg hne]; rfl
  | @group k e rest hk he hr hrest ih1 ih2 =>
    have hnew := hch k hk (by rw [Dict.get?, if_pos rfl]; simp)
    have hhas : ¬ e.has kDataset = true := by rw [Dict.has, he.not_has]; simp
    have hsub := ih1 [] .nil (fun _ => rfl) (fun _ _ _ => rfl)
    have hreq : (H5.node none A ch).require k = .ok H5.empty := by rw [H5.require, hnew]
    have hnode : H5.node none ([] ++ ownAttrs e) (H5s.nil.append (kids e)) = nodeOf e := by
      rw [nodeOf, dataOf, he.not_has]; rfl
    rw [writeDict, writeItem, if_neg hk.1, if_neg hhas, hreq, py_bind_ok, H5.empty, hsub, hnode, py_bind_ok, H5.put,
      H5s.set_new ch k _ hnew, py_bind_ok, ih2, kids_cons_plain hk, H5s.append_assoc]
    · have : ownAttrs (.cons k (.dict e) rest) = ownAttrs rest := by rw [ownAttrs, ownAttrs, Dict.get?, if_neg hk.1]
      rw [this]; rfl
    · exact fun h => hA (by rw [Dict.get?, if_neg hk.1]; exact h)
    · intro k' hk' h
      have hne : k ≠ k' := fun e => h (e ▸ hr)
      rw [H5s.get?_append, hch k' hk' (by rw [Dict.get?, if_neg hne]; exact h), H5s.get?, if_neg hne]; rfl

/-- Writing a tidy entry under a new name. -/
theorem toNexus_new {d : Dict} (hd : Tidy d) {name : Str} {a : List (Str × Leaf)} {ch : H5s} (hnew : ch.get? name = none) :
    toNexus d name (.node none a ch) = .ok (.node none a (ch.set name (nodeOf d))) := by
  have hw := writeDict_tree hd [] .nil (fun _ => rfl) (fun _ _ _ => rfl)
  have hnode : H5.node none ([] ++ ownAttrs d) (H5s.nil.append (kids d)) = nodeOf d := by
    rw [nodeOf, dataOf, hd.not_has]; rfl
  have hreq : (H5.node none a ch).require name = .ok H5.empty := by rw [H5.require, hnew]
  rw [toNexus, hreq, py_bind_ok, H5.empty, hw, py_bind_ok, hnode]; rfl

theorem kids_get {d : Dict} {k : Str} (hk : Plain k) : (kids d).get? k = (d.get? k).map nodeVal := by
  induction d using Dict.rec (motive_1 := fun _ => True) with
  | leaf => trivial
  | dict => trivial
  | nil => rfl
  | cons k' v rest _ ih =>
    rw [kids, Dict.get?]
    split
    · rename_i h
      rw [if_neg (by rintro rfl; exact not_or.2 hk h), ih]
    · rw [H5s.get?]
      split
      · rfl
      · exact ih

theorem kids_special {d : Dict} {k : Str} (hk : ¬ Plain k) : (kids d).get? k = none := by
  induction d using Dict.rec (motive_1 := fun _ => True) with
  | leaf => trivial
  | dict => trivial
  | nil => rfl
  | cons k' v rest _ ih =>
    rw [kids]
    split
    · exact ih
    · rename_i h
      rw [H5s.get?, if_neg (by rintro rfl; exact hk (not_or.1 h)), ih]

theorem Tidy.sub {d : Dict} (h : Tidy d) {k : Str} {v : Val} (hk : Plain k) (hg : d.get? k = some v) :
    ∃ e, v = .dict e ∧ ((∃ x, Ds e x) ∨ Tidy e) := by
  induction h with
  | nil => exact absurd hg (by simp [Dict.get?])
  | attrs _ _ _ ih => rw [Dict.get?, if_neg (Ne.symm hk.1)] at hg; exact ih hg
  | @data k' e x rest hk' he hr hrest ih =>
    rw [Dict.get?] at hg
    split at hg
    · obtain rfl := Option.some.inj hg; exact ⟨e, rfl, .inl ⟨x, he⟩⟩
    · exact ih hg
  | @group k' e rest hk' he hr hrest ih1 ih2 =>
    rw [Dict.get?] at hg
    split at hg
    · obtain rfl := Option.some.inj hg; exact ⟨e, rfl, .inr he⟩
    · exact ih2 hg

end Tavi
