import Verif.Props.Written
import Verif.Props.Session

/-!
# Looking things up after writing and reading (C81)
-/

namespace Tavi

open Spec

theorem norm_erase (d : Dict) {q : Str} (hq : q ≠ kAttrs) : norm (d.erase q) = (norm d).erase q := by
  induction d using Dict.rec (motive_1 := fun _ => True) with
  | leaf => trivial
  | dict => trivial
  | nil => rfl
  | cons k v rest _ ih =>
    rw [Dict.erase]
    by_cases h : k = q
    · have hk : k ≠ kAttrs := h ▸ hq
      rw [if_pos h, norm_cons hk, Dict.erase, if_pos h, ih]
    · rw [if_neg h]
      by_cases hk : k = kAttrs
      · rw [norm, if_pos hk, norm, if_pos hk, ih]
      · rw [norm_cons hk, norm_cons hk, Dict.erase, if_neg h, ih]

theorem norm_drop (d : Dict) : norm (dropLogs d) = dropLogs (norm d) := by
  rw [dropLogs, norm_erase _ (by decide), norm_erase _ (by decide), dropLogs]

theorem keys_norm (d : Dict) : (norm d).keys = d.keys.filter fun k => decide (k ≠ kAttrs) := by
  induction d using Dict.rec (motive_1 := fun _ => True) with
  | leaf => trivial
  | dict => trivial
  | nil => rfl
  | cons k v rest _ ih =>
    rw [Dict.keys]
    by_cases hk : k = kAttrs
    · rw [norm, if_pos hk, List.filter_cons_of_neg (by simp [hk]), ih]
    · rw [norm_cons hk, Dict.keys, List.filter_cons_of_pos (by simpa using hk), ih]

theorem Tidy.nodup {d : Dict} (h : Tidy d) : d.keys.Nodup := by
  induction h with
  | nil => exact List.nodup_nil
  | attrs _ hr _ ih => rw [Dict.keys, List.nodup_cons]; exact ⟨(get?_none_iff _ _).1 hr, ih⟩
  | data _ _ hr _ ih => rw [Dict.keys, List.nodup_cons]; exact ⟨(get?_none_iff _ _).1 hr, ih⟩
  | group _ _ hr _ _ ih => rw [Dict.keys, List.nodup_cons]; exact ⟨(get?_none_iff _ _).1 hr, ih⟩

theorem keys_erase (d : Dict) (q : Str) : (d.erase q).keys = d.keys.filter fun k => decide (k ≠ q) := by
  rw [keys_eq, keys_eq, items_erase, List.filter_map]; rfl

theorem nodup_drop {d : Dict} (h : d.keys.Nodup) : (dropLogs d).keys.Nodup := by
  rw [dropLogs, keys_erase, keys_erase]; exact (h.filter _).filter _

/-! ## What a look-up gives is data -/

theorem below_tidy {d e : Dict} (h : Below d e) (hd : Tidy d ∨ ∃ v, Ds d v) : Tidy e ∨ ∃ v, Ds e v := by
  induction h with
  | refl => exact hd
  | @step d e f k hm hk _ ih =>
    refine ih ?_
    rcases hd with hd | ⟨v, hv⟩
    · obtain ⟨e', he, h'⟩ := hd.sub hk (get?_of_mem hd.nodup hm)
      obtain rfl : e = e' := by injection he
      exact h'.symm
    · exfalso
      have : d.get? k = none := ds_no_member hv hk
      rw [get?_none_iff, keys_eq] at this
      exact this (List.mem_map_of_mem (f := Prod.fst) hm)

theorem holds_leaf {e : Dict} {parts : List Str} {x : Val} (he : Tidy e ∨ ∃ v, Ds e v) (hp : ∀ k ∈ parts, Plain k)
    (h : Holds e parts false x) : ∃ v, x = .leaf v := by
  obtain ⟨f, hf, hx⟩ := h
  rcases (at_nodeOf he hp hf).2 with h | ⟨v, h⟩
  · exact absurd (h.not_has) (by rw [show f.get? kDataset = some x from hx]; simp)
  · obtain ⟨_, rfl | ⟨a, _, rfl | rfl⟩⟩ := h <;> exact ⟨v, (Option.some.inj hx).symm⟩

theorem tidy_erase {d : Dict} (hd : Tidy d) (q : Str) : Tidy (d.erase q) := by
  have hnone : ∀ (r : Dict) k, r.get? k = none → (r.erase q).get? k = none := by
    intro r k h; rw [get?_erase]; split
    · rfl
    · exact h
  induction hd with
  | nil => exact .nil
  | attrs ha hr _ ih =>
    rw [Dict.erase]; split
    · exact ih
    · exact .attrs ha (hnone _ _ hr) ih
  | data hk he hr _ ih =>
    rw [Dict.erase]; split
    · exact ih
    · exact .data hk he (hnone _ _ hr) ih
  | group hk he hr _ _ ih =>
    rw [Dict.erase]; split
    · exact ih
    · exact .group hk he (hnone _ _ hr) ih

theorem tidy_drop {d : Dict} (hd : Tidy d) : Tidy (dropLogs d) := tidy_erase (tidy_erase hd _) _

theorem tidy_value {d : Dict} (hd : Tidy d) {k : Str} {ks : List Str} (hp : ∀ q ∈ k :: ks, Plain q) {x : Val}
    (h : getItem d (k :: ks) false = .ok (some x)) : ∃ v, x = .leaf v := by
  obtain ⟨e, he, hh⟩ := getItem_sound hp h
  exact holds_leaf (below_tidy he (.inl hd)) hp hh

theorem below_read {d e : Dict} (h : Below d e) : ∀ {t}, d = readNode t → ∃ n, e = readNode n := by
  induction h with
  | refl => exact fun {t} h => ⟨t, h⟩
  | @step d e f k hm hk _ ih =>
    rintro t rfl
    cases t with
    | node v a ch =>
      have key : ∀ ch : H5s, (k, Val.dict e) ∈ items (readMembers ch) → ∃ n, e = readNode n := by
        intro ch
        induction ch using H5s.rec (motive_1 := fun _ => True) with
        | node => trivial
        | nil => intro h; exact absurd h (by simp [readMembers, items])
        | cons k' n rest _ ih' =>
          intro h
          rw [readMembers, items, List.mem_cons] at h
          rcases h with h | h
          · exact ⟨n, by injection (Prod.mk.inj h).2⟩
          · exact ih' h
      cases v with
      | none =>
        rw [readNode, items, List.mem_cons] at hm
        rcases hm with hm | hm
        · exact absurd (Prod.mk.inj hm).1 hk.1
        · obtain ⟨n, hn⟩ := key ch hm
          exact ih hn
      | some v =>
        exfalso
        cases a with
        | nil =>
          rw [readNode, items, List.mem_cons] at hm
          rcases hm with hm | hm
          · exact absurd (Prod.mk.inj hm).1 hk.2
          · exact absurd hm (by simp [items])
        | cons z a =>
          rw [readNode, items, List.mem_cons, items, List.mem_cons] at hm
          · rcases hm with hm | hm | hm
            · exact absurd (Prod.mk.inj hm).1 hk.1
            · exact absurd (Prod.mk.inj hm).1 hk.2
            · exact absurd hm (by simp [items])
          · simp

theorem read_leaf {t : H5} {v : Leaf} (h : (readNode t).get? kDataset = some (.leaf v)) : readLeaf v = v := by
  cases t with
  | node w a ch =>
    cases w with
    | none =>
      rw [readNode, Dict.get?, if_neg kAttrs_ne_kDataset, get?_readMembers] at h
      cases hc : ch.get? kDataset with
      | none => rw [hc] at h; exact absurd h (by simp)
      | some n => rw [hc] at h; exact absurd h (by simp)
    | some w =>
      have : v = readLeaf w := by
        cases a with
        | nil =>
          rw [readNode, Dict.get?, if_pos rfl] at h
          injection h with h; injection h with h; exact h.symm
        | cons z a =>
          rw [readNode, Dict.get?, if_neg kAttrs_ne_kDataset, Dict.get?, if_pos rfl] at h
          · injection h with h; injection h with h; exact h.symm
          · simp
      rw [this, readLeaf_readLeaf]

theorem below_erase {d e : Dict} {q : Str} (h : Below (d.erase q) e) : e = d.erase q ∨ Below d e := by
  generalize hd : d.erase q = d' at h
  cases h with
  | refl => exact .inl rfl
  | step hm hk hb =>
    rw [← hd, items_erase, List.mem_filter] at hm
    exact .inr (.step hm.1 hk hb)

/-- Everything looked up in an entry that was read is as it is read. -/
theorem read_value {t : H5} {k : Str} {ks : List Str} (hp : ∀ q ∈ k :: ks, Plain q) {v : Leaf}
    (h : getItem (dropLogs (readNode t)) (k :: ks) false = .ok (some (.leaf v))) : readLeaf v = v := by
  obtain ⟨e, he, f, hf, hx⟩ := getItem_sound hp h
  have hb : Below (dropLogs (readNode t)) f := he.trans (below_of_walk hp hf)
  have hx' : f.get? kDataset = some (.leaf v) := hx
  rcases below_erase hb with rfl | hb
  · rw [get?_erase, if_neg (by decide), get?_erase, if_neg (by decide)] at hx'
    exact read_leaf hx'
  · rcases below_erase hb with rfl | hb
    · rw [get?_erase, if_neg (by decide)] at hx'
      exact read_leaf hx'
    · obtain ⟨n, rfl⟩ := below_read hb rfl
      exact read_leaf hx'

/-- A path of a single part is the key. -/
theorem path_single {key k : Str} (h : path key false = [k]) : key = k ∧ path k false = [k] := by
  have : key = k := by
    unfold path at h
    split at h
    · cases h
    · split at h
      · cases h
      · split at h
        · cases h
        · have hj := (join_splitChar '/' key).1
          rw [h] at hj
          exact hj.symm
  exact ⟨this, this ▸ h⟩

/-- A value as it is read. -/
def readVal : Val → Val
  | .leaf v => .leaf (readLeaf v)
  | .dict d => .dict d

/-- Look-ups in a written entry. -/
theorem look_written {d M : Dict} {t : H5} (ht : Tidy d) (he : norm (readNode t) = (norm d).set kData (.dict M))
    (hD : (norm d).get? kData = some (.dict .nil)) (hM : Bare M) {key : Str} {k : Str} {ks : List Str}
    (hkey : path key false = k :: ks) (hp : ∀ q ∈ k :: ks, Plain q) (hk : k ≠ kData)
    (hone : ks = [] → ∀ v, M.get? k = some (.dict (bareDs v)) →
      ∃ w, (nxGet d key false).1 = .ok (some (.leaf w)) ∧ readLeaf w = readLeaf v) :
    (nxGet (readNode t) key false).1 = (nxGet d key false).1.map (Option.map readVal) := by
  have hpa : ∀ q ∈ k :: ks, q ≠ kAttrs := fun q h => (hp q h).1
  have e1 : (nxGet (readNode t) key false).1 = getItem (dropLogs (readNode t)) (k :: ks) false := by
    rw [nxGet, split_special, hkey]
  have e2 : (nxGet d key false).1 = getItem (dropLogs d) (k :: ks) false := by rw [nxGet, split_special, hkey]
  rw [e2] at hone
  rw [e1, e2]
  have hfill : getItem ((norm (dropLogs d)).set kData (.dict M)) (k :: ks) false = getItem (norm (dropLogs d)) (k :: ks) false := by
    refine getItem_fill ?_ ?_ hk ?_
    · rw [norm_drop]
      refine nodup_drop ?_
      rw [keys_norm]; exact ht.nodup.filter _
    · rw [norm_drop, dropLogs, get?_erase, if_neg (by decide), get?_erase, if_neg (by decide), hD]
    · cases ks with
      | cons k' ks => exact .inl (bare_path hM (hp k (by simp)).2 (hp k' (by simp)).2)
      | nil =>
        cases hc : M.get? k with
        | none => exact .inl (bare_absent hM (hp k (by simp)).2 hc)
        | some u =>
          obtain ⟨v, rfl⟩ := hM k u (mem_items_of_get? hc)
          obtain ⟨w, hw, hwv⟩ := hone rfl v hc
          refine .inr ⟨.leaf (readLeaf v), bare_hit hc, ?_⟩
          rw [getItem_norm _ hpa, hw, ← hwv]; rfl
  have hn : norm (dropLogs (readNode t)) = (norm (dropLogs d)).set kData (.dict M) := by
    rw [norm_drop, he, dropLogs, erase_set _ (by decide), erase_set _ (by decide), norm_drop, dropLogs]
  have h1 := getItem_norm (dropLogs (readNode t)) hpa
  rw [hn, hfill, getItem_norm _ hpa] at h1
  cases hc : getItem (dropLogs d) (k :: ks) false with
  | error err =>
    rw [hc] at h1
    cases hc' : getItem (dropLogs (readNode t)) (k :: ks) false with
    | error err' => rw [hc'] at h1; injection h1 with h1; rw [h1]; rfl
    | ok o => rw [hc'] at h1; cases h1
  | ok o =>
    rw [hc] at h1
    cases hc' : getItem (dropLogs (readNode t)) (k :: ks) false with
    | error err' => rw [hc'] at h1; cases h1
    | ok o' =>
      rw [hc'] at h1
      have h2 : Option.map normV o = Option.map normV o' := by injection h1
      cases o with
      | none =>
        cases o' with
        | none => rfl
        | some u => exact absurd h2 (by simp)
      | some u =>
        cases o' with
        | none => exact absurd h2 (by simp)
        | some u' =>
          obtain ⟨v, rfl⟩ := tidy_value (tidy_drop ht) hp hc
          have h3 : normV (.leaf v) = normV u' := by injection h2
          cases u' with
          | dict d' => rw [normV, normV] at h3; cases h3
          | leaf v' =>
            rw [normV, normV] at h3
            have h4 : readLeaf v = readLeaf v' := by injection h3
            rw [read_value hp hc'] at h4
            rw [← h4]; rfl

theorem below_entry {d e : Dict} (h : Below d e) (hd : Entry d ∨ Data d) : Entry e ∨ Data e := by
  induction h with
  | refl => exact hd
  | @step d e f k hm hk _ ih =>
    refine ih ?_
    rcases hd with hd | hd
    · have key : ∀ {d}, Entry d → (k, Val.dict e) ∈ items d → Entry e ∨ Data e := by
        intro d hd
        induction hd with
        | nil => intro h; exact absurd h (by simp [items])
        | attrs _ _ _ ih' =>
          intro h
          rw [items, List.mem_cons] at h
          rcases h with h | h
          · exact absurd (Prod.mk.inj h).1 hk.1
          · exact ih' h
        | data _ hd' _ _ ih' =>
          intro h
          rw [items, List.mem_cons] at h
          rcases h with h | h
          · injection (Prod.mk.inj h).2 with h2
            rw [h2]; exact .inr hd'
          · exact ih' h
        | group _ hd' _ _ _ ih' =>
          intro h
          rw [items, List.mem_cons] at h
          rcases h with h | h
          · injection (Prod.mk.inj h).2 with h2
            rw [h2]; exact .inl hd'
          · exact ih' h
      exact key hd hm
    · exfalso
      obtain ⟨v, hv⟩ := data_ds hd
      have : d.get? k = none := ds_no_member hv hk
      rw [get?_none_iff, keys_eq] at this
      exact this (List.mem_map_of_mem (f := Prod.fst) hm)

theorem fits_read {ty : Option Str} {v : Leaf} (h : Fits ty v) : readLeaf v = v := by
  cases v with
  | strs l => exact absurd h (by simp [Fits])
  | _ => rfl

theorem data_read {e : Dict} (h : Data e) {v : Leaf} (hv : e.get? kDataset = some (.leaf v)) : readLeaf v = v := by
  cases h with
  | bare hf => injection hv with hv; injection hv with hv; rw [← hv]; exact fits_read hf
  | dataFirst _ hf => injection hv with hv; injection hv with hv; rw [← hv]; exact fits_read hf
  | attrsFirst _ hf => injection hv with hv; injection hv with hv; rw [← hv]; exact fits_read hf

/-- The data of a well-formed entry are not changed by reading. -/
theorem entry_value {d : Dict} (hd : Entry d) {k : Str} {ks : List Str} (hp : ∀ q ∈ k :: ks, Plain q) {x : Val}
    (h : getItem (dropLogs d) (k :: ks) false = .ok (some x)) : readVal x = x := by
  obtain ⟨v, rfl⟩ := tidy_value (tidy_drop (entry_tidy hd)) hp h
  obtain ⟨e, he, f, hf, hx⟩ := getItem_sound hp h
  have hb : Below (dropLogs d) f := he.trans (below_of_walk hp hf)
  rcases below_entry hb (.inl (entry_erase (entry_erase hd _) _)) with h1 | h1
  · exact absurd ((entry_tidy h1).not_has) (by rw [show f.get? kDataset = some _ from hx]; simp)
  · rw [readVal, data_read h1 hx]

/-- **C81**: an entry with an empty plot group that is written under a new name and read back gives the same data for every
key: the links to the axes of the plot do not get in the way. `hone`: the name of an axis, when it is looked up in the entry,
gives the axis. -/
theorem C81_lookup (d : Dict) (hd : Entry d) (name : Str) (f : NxFile) (a : List (Str × Leaf)) (ch : H5s)
    (hf : f.tree = .node none a ch) (hnew : ch.get? name = none) (hl : ∀ l ∈ f.links, l.entry ≠ name) (x y : Str)
    (ox oy : Option (List Str)) (A : Str → Option Leaf) (hdata : view d ["data".toList] = some (none, A))
    (hempty : ∀ k, view d ["data".toList, k] = none)
    (hy : A "signal".toList = some (.str y)) (hx : A "axes".toList = some (.str x)) (hxy : x ≠ y) (hxp : Plain x) (hyp : Plain y)
    (hax : AxisOf d x ox) (hay : AxisOf d y oy)
    (hone : ∀ k p v B key, (k = x ∧ ox = some p) ∨ (k = y ∧ oy = some p) → view d p = some (some v, B) →
      path key false = [k] → (nxGet d key false).1 = .ok (some (.leaf v))) :
    ∃ f' r e, toNexusFile d name f = .ok f' ∧ fromNexusFile f' none = .ok r ∧ r.get? name = some (.dict e) ∧
      ∀ key, (∀ q ∈ path key false, Plain q) → (path key false).head? ≠ some "data".toList →
        (nxGet e key false).1 = (nxGet d key false).1 := by
  obtain ⟨f', r, t, M, h1, _, h2, h3, _, _, _, h5, h6, h7, h8, h9⟩ :=
    written_in [] (entry_tidy hd) hf hnew hl hdata hy hx hxy hax hay hxp.1 hyp.1 hempty
  refine ⟨f', r, readNode t, h1, h2, h3, fun key hp hk => ?_⟩
  cases hkey : path key false with
  | nil =>
    exfalso
    unfold path at hkey
    split at hkey
    · cases hkey
    · split at hkey
      · cases hkey
      · split at hkey
        · cases hkey
        · exact absurd hkey (splitChar_ne_nil _ _)
  | cons k ks =>
    rw [hkey] at hp hk
    have hkd : k ≠ kData := fun h => hk (by rw [h]; rfl)
    rw [look_written (entry_tidy hd) h5 h6 h7 hkey hp hkd ?_]
    · cases hc : (nxGet d key false).1 with
      | error err => rfl
      | ok o =>
        cases o with
        | none => rfl
        | some u =>
          have : getItem (dropLogs d) (k :: ks) false = .ok (some u) := by
            rw [← hc, nxGet, split_special, hkey]
          show Except.ok (some (readVal u)) = _
          rw [entry_value hd hp this]
    · rintro rfl v hv
      have hko : k = x ∨ k = y := by
        by_contra hcon
        rw [not_or] at hcon
        rw [h8 k hcon.1 hcon.2] at hv
        exact absurd hv (by simp)
      rcases hko with rfl | rfl
      · obtain ⟨g1, g2⟩ := h9 k ox (.inl ⟨rfl, rfl⟩)
        cases ho : ox with
        | none => rw [g1 ho] at hv; exact absurd hv (by simp)
        | some p =>
          obtain ⟨v', B, hv', hM'⟩ := g2 p ho
          refine ⟨v', hone k p v' B key (.inl ⟨rfl, ho⟩) hv' hkey, ?_⟩
          rw [hM'] at hv
          simpa [bareDs] using hv
      · obtain ⟨g1, g2⟩ := h9 k oy (.inr ⟨rfl, rfl⟩)
        cases ho : oy with
        | none => rw [g1 ho] at hv; exact absurd hv (by simp)
        | some p =>
          obtain ⟨v', B, hv', hM'⟩ := g2 p ho
          refine ⟨v', hone k p v' B key (.inr ⟨rfl, ho⟩) hv' hkey, ?_⟩
          rw [hM'] at hv
          simpa [bareDs] using hv

end Tavi
