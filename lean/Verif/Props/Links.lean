import Verif.Props.Tree

/-!
# The default plot of a written entry (C80)

`Spec.Seen`, `Spec.OnlyAt` and `Spec.place` say where in an entry a name stands, independently of the search of the code.
-/

namespace Tavi

open Spec

namespace Spec

/-- A name that the search for the axes looks at. -/
def Seen (k : Str) : Prop := Plain k ∧ k ≠ "SPICElogs".toList ∧ k ≠ "data".toList

/-- Where the numbers of an axis are: those of the detector and of the monitor are one level further down. -/
def place (val : Str) : List Str :=
  if val = "detector".toList then [val, "data".toList]
  else if val = "monitor".toList then [val, "monitor".toList]
  else [val]

/-- `q` is the only group that has a member `val` (not counting the logs and `data`). -/
structure OnlyAt (d : Dict) (val : Str) (q : List Str) : Prop where
  there : ∃ e, walk d (q ++ [val]) = some e
  seen : ∀ k ∈ q ++ [val], Seen k
  only : ∀ q' e, (∀ k ∈ q' ++ [val], Seen k) → walk d (q' ++ [val]) = some e → q' = q

end Spec

/-! ## The search -/

theorem ds_no_member {e : Dict} {v : Leaf} (h : Ds e v) {k : Str} (hk : Plain k) : e.get? k = none := by
  obtain ⟨_, rfl | ⟨a, _, rfl | rfl⟩⟩ := h
  · rw [Dict.get?, if_neg (Ne.symm hk.2)]; rfl
  · rw [Dict.get?, if_neg (Ne.symm hk.2), Dict.get?, if_neg (Ne.symm hk.1)]; rfl
  · rw [Dict.get?, if_neg (Ne.symm hk.1), Dict.get?, if_neg (Ne.symm hk.2)]; rfl

theorem ds_kids {e : Dict} {v : Leaf} (h : Ds e v) : nodeOf e = .node (some v) (ownAttrs e) .nil := by
  have h1 : dataOf e = some v := by rw [dataOf, ds_get h]
  have h2 : kids e = .nil := by
    obtain ⟨_, rfl | ⟨a, _, rfl | rfl⟩⟩ := h
    · rw [kids, if_pos (.inr rfl), kids]
    · rw [kids, if_pos (.inr rfl), kids, if_pos (.inl rfl), kids]
    · rw [kids, if_pos (.inl rfl), kids, if_pos (.inr rfl), kids]
  rw [nodeOf, h1, h2]

theorem tidy_node {e : Dict} (h : Tidy e) : nodeOf e = .node none (ownAttrs e) (kids e) := by
  rw [nodeOf, dataOf, h.not_has]

theorem walk_cons_ne {k k' : Str} (v : Val) (rest : Dict) (ks : List Str) (h : k ≠ k') :
    walk (.cons k v rest) (k' :: ks) = walk rest (k' :: ks) := by
  rw [walk, walk, Dict.get?, if_neg h]

theorem walk_cons_eq {k : Str} (e rest : Dict) (ks : List Str) : walk (.cons k (.dict e) rest) (k :: ks) = walk e ks := by
  rw [walk, Dict.get?, if_pos rfl]

/-- What the search finds is there; if it finds nothing there is nothing. -/
theorem findVal_spec {d : Dict} (hd : Tidy d) (val : Str) :
    match findVal val (kids d) with
    | some p => ∃ q, p = q ++ place val ∧ (∀ k ∈ q ++ [val], Seen k) ∧ ∃ e, walk d (q ++ [val]) = some e
    | none => ∀ q e, (∀ k ∈ q ++ [val], Seen k) → walk d (q ++ [val]) ≠ some e := by
  induction hd with
  | nil =>
    rw [kids, findVal]
    intro q e hs
    cases q with
    | nil => simp [walk, Dict.get?]
    | cons k q => simp [walk, Dict.get?]
  | @attrs a rest ha hr hrest ih =>
    rw [kids, if_pos (.inl rfl)]
    cases hf : findVal val (kids rest) with
    | some p =>
      rw [hf] at ih
      obtain ⟨q, rfl, hq, e, he⟩ := ih
      refine ⟨q, rfl, hq, e, ?_⟩
      cases q with
      | nil => rw [List.nil_append, walk_cons_ne _ _ _ (Ne.symm (hq val (by simp)).1.1)]; exact he
      | cons k q => rw [List.cons_append, walk_cons_ne _ _ _ (Ne.symm (hq k (by simp)).1.1)]; exact he
    | none =>
      rw [hf] at ih
      intro q e hq
      cases q with
      | nil => rw [List.nil_append, walk_cons_ne _ _ _ (Ne.symm (hq val (by simp)).1.1)]; exact ih [] e hq
      | cons k q => rw [List.cons_append, walk_cons_ne _ _ _ (Ne.symm (hq k (by simp)).1.1)]; exact ih (k :: q) e hq
  | @data k e v rest hk he hr hrest ih =>
    have hstep : ∀ q f, (∀ k ∈ q ++ [val], Seen k) → walk (.cons k (.dict e) rest) (q ++ [val]) = some f →
        walk rest (q ++ [val]) = some f ∨ (q = [] ∧ val = k) := by
      intro q f hq hw
      cases q with
      | nil =>
        by_cases hkv : k = val
        · exact .inr ⟨rfl, hkv.symm⟩
        · rw [List.nil_append, walk_cons_ne _ _ _ hkv] at hw; exact .inl hw
      | cons k' q =>
        by_cases hkv : k = k'
        · subst hkv
          rw [List.cons_append, walk_cons_eq] at hw
          cases q with
          | nil => rw [List.nil_append, walk, ds_no_member he (hq val (by simp)).1] at hw; exact absurd hw (by simp)
          | cons k'' q => rw [List.cons_append, walk, ds_no_member he (hq k'' (by simp)).1] at hw; exact absurd hw (by simp)
        · rw [List.cons_append, walk_cons_ne _ _ _ hkv] at hw; exact .inl hw
    have hback : ∀ q f, walk rest (q ++ [val]) = some f → walk (.cons k (.dict e) rest) (q ++ [val]) = some f := by
      intro q f hw
      cases q with
      | nil =>
        rw [List.nil_append] at hw ⊢
        rw [walk_cons_ne _ _ _ (fun e' => by rw [walk, ← e', hr] at hw; exact absurd hw (by simp))]; exact hw
      | cons k' q =>
        rw [List.cons_append] at hw ⊢
        rw [walk_cons_ne _ _ _ (fun e' => by rw [walk, ← e', hr] at hw; exact absurd hw (by simp))]; exact hw
    have hrec : (¬ (val = k ∧ Seen k)) → (match findVal val (kids rest) with
        | some p => ∃ q, p = q ++ place val ∧ (∀ k ∈ q ++ [val], Seen k) ∧ ∃ f, walk (.cons k (.dict e) rest) (q ++ [val]) = some f
        | none => ∀ q f, (∀ k ∈ q ++ [val], Seen k) → walk (.cons k (.dict e) rest) (q ++ [val]) ≠ some f) := by
      intro hno
      cases hf : findVal val (kids rest) with
      | some p =>
        rw [hf] at ih
        obtain ⟨q, h1, h2, f, h3⟩ := ih
        exact ⟨q, h1, h2, f, hback q f h3⟩
      | none =>
        rw [hf] at ih
        intro q f hq hw
        rcases hstep q f hq hw with h | ⟨rfl, rfl⟩
        · exact ih q f hq h
        · exact hno ⟨rfl, hq val (by simp)⟩
    rw [kids_cons_plain hk, findVal]
    by_cases h1 : k = kSpice ∨ k = kData
    · rw [if_pos h1]
      exact hrec (fun h => h1.elim (fun e => h.2.2.1 e) (fun e => h.2.2.2 e))
    · rw [if_neg h1]
      by_cases h2 : val = k
      · subst h2
        rw [if_pos rfl]
        have hs : Seen val := ⟨hk, fun e => h1 (.inl e), fun e => h1 (.inr e)⟩
        exact ⟨[], rfl, fun k hk => by simp at hk; exact hk ▸ hs, e, by rw [List.nil_append, walk_cons_eq, walk]⟩
      · rw [if_neg h2, ds_kids he, findIn]
        exact hrec (fun h => h2 h.1)
  | @group k e rest hk he hr hrest ih1 ih2 =>
    have hback : ∀ q f, walk rest (q ++ [val]) = some f → walk (.cons k (.dict e) rest) (q ++ [val]) = some f := by
      intro q f hw
      cases q with
      | nil =>
        rw [List.nil_append] at hw ⊢
        rw [walk_cons_ne _ _ _ (fun e' => by rw [walk, ← e', hr] at hw; exact absurd hw (by simp))]; exact hw
      | cons k' q =>
        rw [List.cons_append] at hw ⊢
        rw [walk_cons_ne _ _ _ (fun e' => by rw [walk, ← e', hr] at hw; exact absurd hw (by simp))]; exact hw
    have hrec : (¬ (val = k ∧ Seen k)) → (Seen k → ∀ q f, (∀ k ∈ q ++ [val], Seen k) → walk e (q ++ [val]) ≠ some f) →
        (match findVal val (kids rest) with
        | some p => ∃ q, p = q ++ place val ∧ (∀ k ∈ q ++ [val], Seen k) ∧ ∃ f, walk (.cons k (.dict e) rest) (q ++ [val]) = some f
        | none => ∀ q f, (∀ k ∈ q ++ [val], Seen k) → walk (.cons k (.dict e) rest) (q ++ [val]) ≠ some f) := by
      intro hno hsub
      cases hf : findVal val (kids rest) with
      | some p =>
        rw [hf] at ih2
        obtain ⟨q, h1, h2, f, h3⟩ := ih2
        exact ⟨q, h1, h2, f, hback q f h3⟩
      | none =>
        rw [hf] at ih2
        intro q f hq hw
        cases q with
        | nil =>
          by_cases hkv : k = val
          · exact hno ⟨hkv.symm, hkv ▸ hq val (by simp)⟩
          · rw [List.nil_append, walk_cons_ne _ _ _ hkv] at hw; exact ih2 [] f hq hw
        | cons k' q =>
          by_cases hkv : k = k'
          · subst hkv
            rw [List.cons_append, walk_cons_eq] at hw
            exact hsub (hq k (by simp)) q f (fun x hx => hq x (by simp at hx ⊢; exact .inr hx)) hw
          · rw [List.cons_append, walk_cons_ne _ _ _ hkv] at hw; exact ih2 (k' :: q) f hq hw
    rw [kids_cons_plain hk, findVal]
    by_cases h1 : k = kSpice ∨ k = kData
    · rw [if_pos h1]
      exact hrec (fun h => h1.elim (fun e => h.2.2.1 e) (fun e => h.2.2.2 e))
        (fun h => absurd h1 (not_or.2 h.2))
    · rw [if_neg h1]
      have hs : Seen k := ⟨hk, fun e => h1 (.inl e), fun e => h1 (.inr e)⟩
      by_cases h2 : val = k
      · subst h2
        rw [if_pos rfl]
        exact ⟨[], rfl, fun k hk => by simp at hk; exact hk ▸ hs, e, by rw [List.nil_append, walk_cons_eq, walk]⟩
      · rw [if_neg h2, tidy_node he, findIn]
        cases hf : findVal val (kids e) with
        | some p =>
          rw [hf] at ih1
          obtain ⟨q, rfl, hq, f, hw⟩ := ih1
          refine ⟨k :: q, rfl, fun x hx => ?_, f, by rw [List.cons_append, walk_cons_eq]; exact hw⟩
          rw [List.cons_append, List.mem_cons] at hx
          rcases hx with rfl | hx
          · exact hs
          · exact hq x hx
        | none =>
          rw [hf] at ih1
          exact hrec (fun h => h2 h.1) (fun _ => ih1)

/-- The search finds a name that stands in one place only. -/
theorem findIn_only {d : Dict} (hd : Tidy d) {val : Str} {q : List Str} (h : OnlyAt d val q) :
    findIn val (nodeOf d) = some (q ++ place val) := by
  have hs := findVal_spec hd val
  rw [tidy_node hd, findIn]
  cases hf : findVal val (kids d) with
  | some p =>
    rw [hf] at hs
    obtain ⟨q', rfl, hq, e, he⟩ := hs
    rw [h.only q' e hq he]
  | none =>
    rw [hf] at hs
    obtain ⟨e, he⟩ := h.there
    exact absurd he (hs q e h.seen)

/-- The search finds nothing when the name stands nowhere. -/
theorem findIn_absent {d : Dict} (hd : Tidy d) {val : Str}
    (h : ∀ q e, (∀ k ∈ q ++ [val], Seen k) → walk d (q ++ [val]) ≠ some e) : findIn val (nodeOf d) = none := by
  have hs := findVal_spec hd val
  rw [tidy_node hd, findIn]
  cases hf : findVal val (kids d) with
  | some p =>
    rw [hf] at hs
    obtain ⟨q', rfl, hq, e, he⟩ := hs
    exact absurd he (h q' e hq)
  | none => rfl

/-! ## Nodes at paths -/

theorem at_nodeOf {d e : Dict} (hd : Tidy d ∨ ∃ v, Ds d v) {p : List Str} (hp : ∀ k ∈ p, Plain k) (h : walk d p = some e) :
    (nodeOf d).at p = some (nodeOf e) ∧ (Tidy e ∨ ∃ v, Ds e v) := by
  induction p generalizing d with
  | nil => obtain rfl := Option.some.inj h; exact ⟨by rw [H5.at], hd⟩
  | cons k p ih =>
    rw [walk] at h
    have hk := hp k (by simp)
    rcases hd with hd | ⟨v, hv⟩
    · cases hg : d.get? k with
      | none => rw [hg] at h; exact absurd h (by simp)
      | some u =>
        obtain ⟨e', rfl, he'⟩ := hd.sub hk hg
        rw [hg] at h
        obtain ⟨h1, h2⟩ := ih he'.symm (fun k hk => hp k (by simp [hk])) h
        refine ⟨?_, h2⟩
        rw [tidy_node hd, H5.at, kids_get hk, hg]
        show ((nodeVal (.dict e')).at p) = _
        rw [nodeVal_dict, h1]
    · rw [ds_no_member hv hk] at h; exact absurd h (by simp)

theorem view_at {t n : H5} {p : List Str} (hp : ∀ k ∈ p, Plain k) (h : t.at p = some n) (r : List Str) :
    t.view (p ++ r) = n.view r := by
  induction p generalizing t with
  | nil => rw [H5.at] at h; obtain rfl := Option.some.inj h; rfl
  | cons k p ih =>
    cases t with
    | node v a ch =>
      cases v with
      | some v => rw [H5.at] at h; exact absurd h (by simp)
      | none =>
        rw [H5.at] at h
        obtain ⟨m, hm, h⟩ := Option.bind_eq_some_iff.1 h
        rw [List.cons_append, H5.view_child (hp k (by simp)), hm]
        exact ih (fun k hk => hp k (by simp [hk])) h

theorem at_modify {f : H5 → H5} {t n : H5} {p : List Str} (h : t.at p = some n) : (t.modify f p).at p = some (f n) := by
  induction p generalizing t with
  | nil => rw [H5.at] at h; obtain rfl := Option.some.inj h; rw [H5.modify, H5.at]
  | cons k p ih =>
    cases t with
    | node v a ch =>
      cases v with
      | some v => rw [H5.at] at h; exact absurd h (by simp)
      | none =>
        rw [H5.at] at h
        obtain ⟨m, hm, h⟩ := Option.bind_eq_some_iff.1 h
        rw [H5.modify, hm]
        show (H5.node none a (ch.set k (m.modify f p))).at (k :: p) = _
        rw [H5.at, H5s.get?_set, if_pos rfl]
        exact ih h

/-- Changing a node changes nothing at paths that do not go through it. -/
theorem view_modify_other {f : H5 → H5} {t : H5} {p q : List Str} (h : ¬ p <+: q) : (t.modify f p).view q = t.view q := by
  induction p generalizing t q with
  | nil => exact absurd List.nil_prefix h
  | cons k p ih =>
    cases t with
    | node v a ch =>
      rw [H5.modify]
      cases hg : ch.get? k with
      | none => rfl
      | some n =>
        show (H5.node v a (ch.set k (n.modify f p))).view q = _
        cases q with
        | nil => rw [H5.view, H5.view]
        | cons k' q =>
          cases v with
          | some v => rw [H5.view, H5.view]
          | none =>
            by_cases hk' : Plain k'
            · rw [H5.view_child hk', H5.view_child hk', H5s.get?_set]
              by_cases hkk : k' = k
              · subst hkk
                rw [if_pos rfl, hg]
                exact ih fun hpre => h (List.cons_prefix_cons.2 ⟨rfl, hpre⟩)
              · rw [if_neg hkk]
            · rw [H5.view_special hk', H5.view_special hk']

/-- The same for nodes, as long as the path does not lead to or through the changed one. -/
theorem at_modify_other {f : H5 → H5} {t n : H5} {p q : List Str} (h : ¬ p <+: q) (h' : ¬ q <+: p) (hq : t.at q = some n) :
    (t.modify f p).at q = some n := by
  induction p generalizing t q with
  | nil => exact absurd List.nil_prefix h
  | cons k p ih =>
    cases t with
    | node v a ch =>
      rw [H5.modify]
      cases hg : ch.get? k with
      | none => exact hq
      | some m =>
        show (H5.node v a (ch.set k (m.modify f p))).at q = _
        cases q with
        | nil => exact absurd List.nil_prefix h'
        | cons k' q =>
          cases v with
          | some v => rw [H5.at] at hq; exact absurd hq (by simp)
          | none =>
            rw [H5.at] at hq ⊢
            rw [H5s.get?_set]
            by_cases hkk : k' = k
            · subst hkk
              rw [if_pos rfl]
              rw [hg] at hq
              exact ih (fun hpre => h (List.cons_prefix_cons.2 ⟨rfl, hpre⟩))
                (fun hpre => h' (List.cons_prefix_cons.2 ⟨rfl, hpre⟩)) hq
            · rw [if_neg hkk]; exact hq

theorem modify_node (f : H5 → H5) (v : Option Leaf) (a : List (Str × Leaf)) (ch : H5s) (k : Str) (p : List Str) {n : H5}
    (h : ch.get? k = some n) : (H5.node v a ch).modify f (k :: p) = .node v a (ch.set k (n.modify f p)) := by
  rw [H5.modify, h]

theorem view_setAttr (t : H5) (k : Str) (w : Leaf) (q : List Str) :
    (t.setAttr k w).view q = if q = [] then (t.view []).map fun z => (z.1, fun x => if x = k then some w else z.2 x)
      else t.view q := by
  cases t with
  | node v a ch =>
    cases q with
    | nil =>
      rw [if_pos rfl, H5.setAttr, H5.view, H5.view]
      simp only [Option.map_some]
      congr 2
      funext x
      rw [lookupKey_setAttr]
    | cons k' q =>
      rw [if_neg (by simp), H5.setAttr]
      cases v with
      | some v => rw [H5.view, H5.view]
      | none => rw [H5.view, H5.view]

theorem view_setChild_other (t n : H5) (k : Str) {r : List Str} (h : ¬ [k] <+: r) : (t.setChild k n).view r = t.view r := by
  cases t with
  | node v a ch =>
    rw [H5.setChild]
    cases r with
    | nil => rw [H5.view, H5.view]
    | cons k' r =>
      cases v with
      | some v => rw [H5.view, H5.view]
      | none =>
        have hne : k' ≠ k := fun e => h (by rw [e]; exact List.cons_prefix_cons.2 ⟨rfl, List.nil_prefix⟩)
        by_cases hk' : Plain k'
        · rw [H5.view_child hk', H5.view_child hk', H5s.get?_set, if_neg hne]
        · rw [H5.view_special hk', H5.view_special hk']

theorem view_eraseChild_other (t : H5) (k : Str) {r : List Str} (h : ¬ [k] <+: r) : (t.eraseChild k).view r = t.view r := by
  cases t with
  | node v a ch =>
    rw [H5.eraseChild]
    cases r with
    | nil => rw [H5.view, H5.view]
    | cons k' r =>
      cases v with
      | some v => rw [H5.view, H5.view]
      | none =>
        have hne : k' ≠ k := fun e => h (by rw [e]; exact List.cons_prefix_cons.2 ⟨rfl, List.nil_prefix⟩)
        by_cases hk' : Plain k'
        · rw [H5.view_child hk', H5.view_child hk', H5s.get?_erase, if_neg hne]
        · rw [H5.view_special hk', H5.view_special hk']

theorem view_modify_in {f : H5 → H5} {t n : H5} {p : List Str} (hp : ∀ k ∈ p, Plain k) (h : t.at p = some n)
    (r : List Str) : (t.modify f p).view (p ++ r) = (f n).view r := view_at hp (at_modify h) r

theorem H5s.set_same (ch : H5s) {k : Str} {n : H5} (h : ch.get? k = some n) : ch.set k n = ch := by
  induction ch using H5s.rec (motive_1 := fun _ => True) with
  | node => trivial
  | nil => exact absurd h (by simp [H5s.get?])
  | cons k' n' rest _ ih =>
    rw [H5s.get?] at h
    rw [H5s.set]
    split at h
    · rename_i hk; rw [if_pos hk, Option.some.inj h]
    · rename_i hk; rw [if_neg hk, ih h]

theorem H5s.set_set (ch : H5s) (k : Str) (m n : H5) : (ch.set k m).set k n = ch.set k n := by
  induction ch using H5s.rec (motive_1 := fun _ => True) with
  | node => trivial
  | nil => simp [H5s.set]
  | cons k' n' rest _ ih =>
    rw [H5s.set]
    split
    · rename_i hk; rw [H5s.set, if_pos hk, H5s.set, if_pos hk]
    · rename_i hk; rw [H5s.set, if_neg hk, H5s.set, if_neg hk, ih]

/-! ## Making one link -/

theorem plain_data : Plain kData := ⟨by decide, by decide⟩

/-- The entry after one link. -/
def linkedEntry (pre name val : Str) (p : List Str) (g : H5) : H5 :=
  (g.modify (fun t => t.eraseChild val) [kData]).modify
    (fun t => t.setAttr "target".toList (.str (pre ++ pathText (name :: p)))) p

theorem modify_erase_none {g : H5} {data : H5} {val : Str} (hd : g.children.get? kData = some data)
    (h : data.children.get? val = none) : g.modify (fun t => t.eraseChild val) [kData] = g := by
  cases g with
  | node v a ch =>
    have hd' : ch.get? kData = some data := hd
    rw [modify_node _ v a ch kData [] hd', H5.modify]
    cases data with
    | node dv da dch =>
      rw [H5.eraseChild, H5s.erase_new dch val h, H5s.set_same ch hd']

theorem linkAxis_ok {a : List (Str × Leaf)} {ch : H5s} {links : List Link} {pre name val : Str} {p : List Str} {g data : H5}
    (hg : ch.get? name = some g) (hp : (g.at p).isSome) (hd : g.children.get? kData = some data)
    (hgrp : data.isDataset = false) (hroom : ∀ n, data.children.get? val = some n → n.isDataset = true)
    (hl : (NxFile.mk (.node none a ch) links).link? name val = none) :
    linkAxis pre name val p ⟨.node none a ch, links⟩ =
      .ok ⟨.node none a (ch.set name (linkedEntry pre name val p g)), links ++ [⟨name, val, p⟩]⟩ := by
  have he : (NxFile.mk (.node none a ch) links).entry name = some g := hg
  have hp' : ¬ (g.at p).isNone = true := by cases h : g.at p <;> simp_all
  unfold linkAxis
  rw [he]
  dsimp only
  rw [if_neg hp', hd]
  dsimp only
  rw [if_neg (by rw [hgrp]; simp)]
  unfold makeRoom
  cases hc : data.children.get? val with
  | none =>
    dsimp only
    rw [hl]
    dsimp only
    rw [py_bind_ok, modify_node _ none a ch name p hg, linkedEntry, modify_erase_none hd hc]
  | some n =>
    dsimp only
    rw [if_pos (hroom n hc), py_bind_ok, modify_node _ none a ch name [kData] hg,
      modify_node _ none a _ name p (by rw [H5s.get?_set, if_pos rfl]), H5s.set_set, linkedEntry]

/-! ## Making both links -/

/-- The same data, and the same attributes except `target`. -/
def Spec.SameBut (z w : Option (Option Leaf × (Str → Option Leaf))) : Prop :=
  z.map Prod.fst = w.map Prod.fst ∧ ∀ u v, z = some u → w = some v → ∀ x, x ≠ "target".toList → u.2 x = v.2 x

theorem Spec.SameBut.refl (z : Option (Option Leaf × (Str → Option Leaf))) : SameBut z z :=
  ⟨rfl, fun u v h h' x _ => by rw [h] at h'; rw [Option.some.inj h']⟩

theorem Spec.SameBut.trans {z w o : Option (Option Leaf × (Str → Option Leaf))} (h : SameBut z w) (h' : SameBut w o) :
    SameBut z o := by
  refine ⟨h.1.trans h'.1, fun u v hu hv x hx => ?_⟩
  cases w with
  | none => rw [hu] at h; exact absurd h.1 (by simp)
  | some m => rw [h.2 u m hu rfl x hx, h'.2 m v rfl hv x hx]

/-- How an entry `g'` with some links made compares to the entry `g` without. -/
structure Made2 (pre name : Str) (g g' : H5) (L : List (Str × List Str)) : Prop where
  view : ∀ q, (∀ z ∈ L, ¬ [kData, z.1] <+: q) → SameBut (g'.view q) (g.view q)
  data : ∃ dg dg', g.at [kData] = some dg ∧ g'.at [kData] = some dg' ∧ dg'.isDataset = false ∧
    ∀ k, (∀ z ∈ L, k ≠ z.1) → dg'.children.get? k = dg.children.get? k
  sets : ∀ p n, ¬ [kData] <+: p → g.at p = some n → n.isDataset = true →
    ∃ n', g'.at p = some n' ∧ n'.isDataset = true ∧ SameBut (n'.view []) (n.view [])
  tgt : ∀ z ∈ L, ∃ n', g'.at z.2 = some n' ∧ n'.isDataset = true ∧ ¬ [kData] <+: z.2 ∧
    lookupKey "target".toList n'.attrs = some (.str (pre ++ pathText (name :: z.2)))

theorem at_data {g dg : H5} (h : g.at [kData] = some dg) : g.children.get? kData = some dg := by
  cases g with
  | node v a ch =>
    cases v with
    | some v => rw [H5.at] at h; exact absurd h (by simp)
    | none =>
      rw [H5.at] at h
      obtain ⟨m, hm, h⟩ := Option.bind_eq_some_iff.1 h
      rw [H5.at] at h
      rw [← Option.some.inj h]; exact hm

/-- Nothing is below a dataset. -/
theorem at_below_dataset {t n m : H5} {p q : List Str} (h : t.at p = some n) (hn : n.isDataset = true) (hq : t.at q = some m)
    (hpq : p <+: q) : p = q := by
  obtain ⟨r, rfl⟩ := hpq
  cases r with
  | nil => simp
  | cons k r =>
    exfalso
    induction p generalizing t with
    | nil =>
      rw [H5.at] at h
      obtain rfl := Option.some.inj h
      cases t with
      | node v a ch => cases v with
        | none => exact absurd hn (by simp [H5.isDataset])
        | some v => rw [List.nil_append, H5.at] at hq; exact absurd hq (by simp)
    | cons k' p ih =>
      cases t with
      | node v a ch => cases v with
        | some v => rw [H5.at] at h; exact absurd h (by simp)
        | none =>
          rw [H5.at] at h
          rw [List.cons_append, H5.at] at hq
          obtain ⟨u, hu, h⟩ := Option.bind_eq_some_iff.1 h
          obtain ⟨u', hu', hq⟩ := Option.bind_eq_some_iff.1 hq
          rw [hu] at hu'
          obtain rfl := Option.some.inj hu'
          exact ih h hq

theorem isDataset_setAttr (t : H5) (k : Str) (w : Leaf) : (t.setAttr k w).isDataset = t.isDataset := by cases t; rfl

theorem isDataset_eraseChild (t : H5) (k : Str) : (t.eraseChild k).isDataset = t.isDataset := by cases t; rfl

theorem children_eraseChild (t : H5) (k : Str) : (t.eraseChild k).children = t.children.erase k := by cases t; rfl

theorem sameBut_setAttr (t : H5) (w : Leaf) (q : List Str) : SameBut ((t.setAttr "target".toList w).view q) (t.view q) := by
  rw [view_setAttr]
  split
  · rename_i hq
    subst hq
    refine ⟨by cases t.view [] <;> rfl, fun u v hu hv x hx => ?_⟩
    rw [hv] at hu
    obtain rfl := Option.some.inj hu
    show (if x = _ then _ else _) = _
    rw [if_neg hx]
  · exact .refl _

theorem Made2.refl (pre name : Str) {g dg : H5} (h : g.at [kData] = some dg) (hd : dg.isDataset = false) : Made2 pre name g g [] :=
  ⟨fun _ _ => .refl _, ⟨dg, dg, h, h, hd, fun _ _ => rfl⟩, fun _ n _ hn hd => ⟨n, hn, hd, .refl _⟩, fun _ h => absurd h (by simp)⟩

theorem attrs_setAttr (t : H5) (k : Str) (w : Leaf) : lookupKey k (t.setAttr k w).attrs = some w := by
  cases t with
  | node v a ch => rw [H5.setAttr, H5.attrs, lookupKey_setAttr, if_pos rfl]

theorem seen_not_data {p : List Str} {k : Str} {ks : List Str} (hp : p = k :: ks) (hk : k ≠ kData) : ¬ [kData] <+: p := by
  subst hp
  intro h
  exact hk (List.cons_prefix_cons.1 h).1.symm

/-- One more link. -/
theorem Made2.link {pre name : Str} {g g' : H5} {L : List (Str × List Str)} (h : Made2 pre name g g' L) {val : Str} {p : List Str} {n : H5}
    (hpl : ∀ k ∈ p, Plain k) (hnd : ¬ [kData] <+: p) (hn : g.at p = some n) (hds : n.isDataset = true) :
    Made2 pre name g (linkedEntry pre name val p g') (L ++ [(val, p)]) := by
  obtain ⟨dg, dg', hdg, hdg', hgrp, hch⟩ := h.data
  obtain ⟨n', hn', hds', hsb⟩ := h.sets p n hnd hn hds
  have hne : ¬ p <+: [kData] := by
    intro hpre
    rcases p with _ | ⟨k, p⟩
    · have := at_below_dataset hn' hds' hdg' hpre
      exact absurd this (by simp)
    · have := (List.cons_prefix_cons.1 hpre)
      have hp0 : p = [] := List.prefix_nil.1 this.2
      subst hp0
      exact hnd (by rw [this.1])
  have hdata1 : (g'.modify (fun t => t.eraseChild val) [kData]).at [kData] = some (dg'.eraseChild val) := at_modify hdg'
  have hn1 : (g'.modify (fun t => t.eraseChild val) [kData]).at p = some n' := at_modify_other hnd hne hn'
  -- what happens to another dataset
  have hother : ∀ p2 m', ¬ [kData] <+: p2 → g'.at p2 = some m' → m'.isDataset = true →
      (p = p2 ∧ m' = n') ∨ (p ≠ p2 ∧ (linkedEntry pre name val p g').at p2 = some m') := by
    intro p2 m' hp2 hm' hmd'
    have hne2 : ¬ p2 <+: [kData] := by
      intro hpre
      have := at_below_dataset hm' hmd' hdg' hpre
      exact hp2 (by rw [this])
    have hm1 : (g'.modify (fun t => t.eraseChild val) [kData]).at p2 = some m' := at_modify_other hp2 hne2 hm'
    by_cases hpp : p = p2
    · subst hpp
      rw [hn1] at hm1
      exact .inl ⟨rfl, (Option.some.inj hm1).symm⟩
    · refine .inr ⟨hpp, at_modify_other ?_ ?_ hm1⟩
      · exact fun hpre => hpp (at_below_dataset hn1 hds' hm1 hpre)
      · exact fun hpre => hpp (at_below_dataset hm1 hmd' hn1 hpre).symm
  have hnew : (linkedEntry pre name val p g').at p = some (n'.setAttr "target".toList (.str (pre ++ pathText (name :: p)))) := at_modify hn1
  refine ⟨fun q hq => ?_, ⟨dg, dg'.eraseChild val, hdg, at_modify_other hne hnd hdata1, ?_, fun k hk => ?_⟩, ?_, ?_⟩
  · have h0 : SameBut (g'.view q) (g.view q) := h.view q fun v hv => hq v (by simp [hv])
    have h1 : (g'.modify (fun t => t.eraseChild val) [kData]).view q = g'.view q := by
      by_cases hd : [kData] <+: q
      · obtain ⟨r, rfl⟩ := hd
        rw [view_modify_in (by simp [plain_data]) hdg', view_at (by simp [plain_data]) hdg',
          view_eraseChild_other]
        intro hr
        exact hq (val, p) (by simp) (by
          rw [show [kData, val] = [kData] ++ [val] from rfl]
          exact (List.prefix_append_right_inj _).2 hr)
      · exact view_modify_other hd
    refine SameBut.trans ?_ (h1 ▸ h0)
    rw [linkedEntry]
    by_cases hpq : p <+: q
    · obtain ⟨r, rfl⟩ := hpq
      rw [view_modify_in hpl hn1, view_at hpl hn1]
      exact sameBut_setAttr n' _ r
    · rw [view_modify_other hpq, h1]
      exact .refl _
  · rw [isDataset_eraseChild, hgrp]
  · rw [children_eraseChild, H5s.get?_erase, if_neg (hk (val, p) (by simp)), hch k fun z hz => hk z (by simp [hz])]
  · intro p2 m hp2 hm hmd
    obtain ⟨m', hm', hmd', hmb⟩ := h.sets p2 m hp2 hm hmd
    rcases hother p2 m' hp2 hm' hmd' with ⟨rfl, rfl⟩ | ⟨_, hm2⟩
    · exact ⟨_, hnew, by rw [isDataset_setAttr]; exact hds', (sameBut_setAttr m' _ []).trans hmb⟩
    · exact ⟨m', hm2, hmd', hmb⟩
  · intro z hz
    rcases List.mem_append.1 hz with hz | hz
    · obtain ⟨m', hm', hmd', hz2, hat⟩ := h.tgt z hz
      rcases hother z.2 m' hz2 hm' hmd' with ⟨hp, rfl⟩ | ⟨_, hm2⟩
      · exact ⟨_, by rw [← hp]; exact hnew, by rw [isDataset_setAttr]; exact hds', hz2, by rw [← hp]; exact attrs_setAttr _ _ _⟩
      · exact ⟨m', hm2, hmd', hz2, hat⟩
    · obtain rfl := List.mem_singleton.1 hz
      exact ⟨_, hnew, by rw [isDataset_setAttr]; exact hds', hnd, attrs_setAttr _ _ _⟩

theorem at_none_of_view {t : H5} {p : List Str} (hp : ∀ k ∈ p, Plain k) (h : t.view p = none) : t.at p = none := by
  cases hc : t.at p with
  | none => rfl
  | some n =>
    have := view_at hp hc []
    rw [List.append_nil, h] at this
    cases n with
    | node v a ch => rw [H5.view] at this; exact absurd this (by simp)

/-- What the search for an axis leads to: a dataset, or nothing that can be linked. -/
inductive Eff (g : H5) (val : Str) : Option (List Str) → Prop
  | found {p n} : findIn val g = some p → (∀ k ∈ p, Plain k) → ¬ [kData] <+: p → g.at p = some n → n.isDataset = true →
      Eff g val (some p)
  | nowhere : findIn val g = none → Eff g val none
  | gone {p} : findIn val g = some p → (∀ k ∈ p, Plain k) → ¬ [kData] <+: p → g.view p = none → Eff g val none

/-- The axis as a list of links. -/
def effLinks (val : Str) (o : Option (List Str)) : List (Str × List Str) := (o.map fun p => (val, p)).toList

theorem linkFound_ok {a : List (Str × Leaf)} {ch : H5s} {links : List Link} {pre name : Str} {g g' : H5} {L : List (Str × List Str)}
    (hg : ch.get? name = some g') (hm : Made2 pre name g g' L) {val : Str} {o : Option (List Str)} (ho : Eff g val o)
    (hL : ∀ z ∈ L, val ≠ z.1) (hl : ∀ l ∈ links, l.entry = name → l.name ≠ val)
    (hroom : ∀ n, g.at [kData, val] = some n → n.isDataset = true) :
    ∃ g'', linkFound pre name (findAxis (.str val) g) ⟨.node none a ch, links⟩ =
        .ok ⟨.node none a (ch.set name g''), links ++ (effLinks val o).map fun z => ⟨name, z.1, z.2⟩⟩ ∧
      Made2 pre name g g'' (L ++ effLinks val o) := by
  have hax : findAxis (.str val) g = (findIn val g).map fun p => (val, p) := rfl
  cases ho with
  | @found p n hf hpl hnd hn hds =>
    rw [hax, hf]
    refine ⟨linkedEntry pre name val p g', ?_, hm.link hpl hnd hn hds⟩
    obtain ⟨dg, dg', hdg, hdg', hgrp, hch⟩ := hm.data
    obtain ⟨n', hn', _, _⟩ := hm.sets p n hnd hn hds
    show linkAxis pre name val p _ = _
    rw [linkAxis_ok hg (by rw [hn']; rfl) (at_data hdg') hgrp ?_ ?_]
    · rfl
    · intro m hmm
      rw [hch val hL] at hmm
      refine hroom m ?_
      cases g with
      | node gv ga gch =>
        cases gv with
        | some gv => rw [H5.at] at hdg; exact absurd hdg (by simp)
        | none =>
          have h1 := at_data hdg
          rw [H5.at, show gch.get? kData = some dg from h1, Option.bind_some]
          cases dg with
          | node dv da dch =>
            cases dv with
            | none =>
              rw [H5.at, show dch.get? val = some m from hmm, Option.bind_some, H5.at]
            | some dv =>
              exfalso
              have := hm.view [kData] (fun z _ hz => by
                have := hz.length_le
                simp at this)
              have e1 := view_at (r := []) (by simp [plain_data]) hdg
              have e2 := view_at (r := []) (by simp [plain_data]) hdg'
              rw [List.append_nil] at e1 e2
              rw [e1, e2] at this
              cases dg' with
              | node v' a' c' =>
                cases v' with
                | some v' => exact absurd hgrp (by simp [H5.isDataset])
                | none => rw [H5.view, H5.view] at this; exact absurd this.1 (by simp)
    · rw [NxFile.link?, List.find?_eq_none]
      intro l hl' hc
      have := of_decide_eq_true hc
      exact hl l hl' this.1 this.2
  | nowhere hf =>
    rw [hax, hf]
    exact ⟨g', by show Except.ok _ = _; rw [H5s.set_same ch hg]; simp [effLinks], by simpa [effLinks] using hm⟩
  | @gone p hf hpl hnd hv =>
    rw [hax, hf]
    refine ⟨g', ?_, by simpa [effLinks] using hm⟩
    have h1 : g'.at p = none := by
      refine at_none_of_view hpl ?_
      have := (hm.view p fun z _ hz => hnd ((show [kData] <+: [kData, z.1] from ⟨[z.1], rfl⟩).trans hz)).1
      rw [hv] at this
      cases hc : g'.view p with
      | none => rfl
      | some z => rw [hc] at this; exact absurd this (by simp)
    have he : (NxFile.mk (.node none a ch) links).entry name = some g' := hg
    show linkAxis pre name val p _ = _
    unfold linkAxis
    rw [he]
    dsimp only
    rw [h1, if_pos Option.isNone_none, H5s.set_same ch hg]
    simp [effLinks]

/-- Both links of a new entry. -/
theorem makeLinks_ok {a : List (Str × Leaf)} {ch : H5s} {links : List Link} {pre name : Str} {g dg : H5}
    (hg : ch.get? name = some g) (hdg : g.at [kData] = some dg) (hgrp : dg.isDataset = false) {x y : Str} {ox oy : Option (List Str)}
    (hy : lookupKey "signal".toList dg.attrs = some (.str y)) (hx : lookupKey "axes".toList dg.attrs = some (.str x))
    (hxy : x ≠ y) (hoy : Eff g y oy) (hox : Eff g x ox) (hl : ∀ l ∈ links, l.entry ≠ name)
    (hroom : ∀ k n, k = x ∨ k = y → g.at [kData, k] = some n → n.isDataset = true) :
    ∃ g', makeLinks pre name ⟨.node none a ch, links⟩ =
        .ok ⟨.node none a (ch.set name g'), links ++ (effLinks y oy ++ effLinks x ox).map fun z => ⟨name, z.1, z.2⟩⟩ ∧
      Made2 pre name g g' (effLinks y oy ++ effLinks x ox) := by
  obtain ⟨g1, h1, hm1⟩ := linkFound_ok (a := a) (links := links) hg (Made2.refl pre name hdg hgrp) hoy (by simp)
    (fun l hl' he => absurd he (hl l hl')) (fun n => hroom y n (.inr rfl))
  rw [List.nil_append] at hm1
  obtain ⟨g2, h2, hm2⟩ := linkFound_ok (a := a) (ch := ch.set name g1)
    (links := links ++ (effLinks y oy).map fun z => ⟨name, z.1, z.2⟩) (by rw [H5s.get?_set, if_pos rfl]) hm1 hox
    (by
      intro z hz
      cases oy with
      | none => exact absurd hz (by simp [effLinks])
      | some p => rw [List.mem_singleton.1 hz]; exact hxy)
    (by
      intro l hl' he
      rcases List.mem_append.1 hl' with h | h
      · exact absurd he (hl l h)
      · obtain ⟨z, hz, rfl⟩ := List.mem_map.1 h
        cases oy with
        | none => exact absurd hz (by simp [effLinks])
        | some p => rw [List.mem_singleton.1 hz]; exact Ne.symm hxy)
    (fun n => hroom x n (.inl rfl))
  refine ⟨g2, ?_, hm2⟩
  have he : (NxFile.mk (.node none a ch) links).entry name = some g := hg
  unfold makeLinks
  rw [he]
  dsimp only
  rw [at_data hdg]
  dsimp only
  rw [hy, need_some, py_bind_ok, hx, need_some, py_bind_ok, h1, py_bind_ok, h2, H5s.set_set, List.map_append, List.append_assoc]

/-! ## Reading a file with links -/

/-- What a link does to the entry `e` that is read. -/
def linkInto (f : NxFile) (e : Str) (g : H5) (l : Link) : H5 :=
  if l.entry = e then match f.target l with
    | some n => g.modify (fun t => t.setChild l.name n) [kData]
    | none => g
  else g

theorem resolved_entry (f : NxFile) {a : List (Str × Leaf)} {ch : H5s} (h : f.tree = .node none a ch) :
    ∃ ch', f.resolved = .node none a ch' ∧ ∀ e, ch'.get? e = (ch.get? e).map fun g => f.links.foldl (linkInto f e) g := by
  have key : ∀ (ls : List Link) (ch : H5s), ∃ ch',
      ls.foldl (fun t l => match f.target l with | some n => addLink l.entry l.name n t | none => t) (.node none a ch) =
        .node none a ch' ∧ ∀ e, ch'.get? e = (ch.get? e).map fun g => ls.foldl (linkInto f e) g := by
    intro ls
    induction ls with
    | nil => exact fun ch => ⟨ch, rfl, fun e => by simp⟩
    | cons l ls ih =>
      intro ch
      rw [List.foldl_cons]
      cases ht : f.target l with
      | none =>
        dsimp only
        obtain ⟨ch', h1, h2⟩ := ih ch
        refine ⟨ch', h1, fun e => ?_⟩
        rw [h2 e]
        refine congrArg (Option.map · _) (funext fun g => ?_)
        rw [List.foldl_cons]
        congr 1
        unfold linkInto
        split <;> simp [ht]
      | some n =>
        dsimp only
        rw [addLink]
        cases hc : ch.get? l.entry with
        | none =>
          have : (H5.node none a ch).modify (fun data => data.setChild l.name n) [l.entry, kData] = .node none a ch := by
            rw [H5.modify, hc]
          rw [this]
          obtain ⟨ch', h1, h2⟩ := ih ch
          refine ⟨ch', h1, fun e => ?_⟩
          rw [h2 e]
          by_cases he : l.entry = e
          · rw [← he, hc]; rfl
          · refine congrArg (Option.map · _) (funext fun g => ?_)
            rw [List.foldl_cons]
            congr 1
            unfold linkInto
            rw [if_neg he]
        | some g0 =>
          rw [modify_node _ none a ch l.entry [kData] hc]
          obtain ⟨ch', h1, h2⟩ := ih (ch.set l.entry (g0.modify (fun data => data.setChild l.name n) [kData]))
          refine ⟨ch', h1, fun e => ?_⟩
          rw [h2 e, H5s.get?_set]
          by_cases he : l.entry = e
          · subst he
            rw [if_pos rfl, hc, Option.map_some, Option.map_some, List.foldl_cons]
            congr 2
            unfold linkInto
            rw [if_pos rfl, ht]
          · rw [if_neg (Ne.symm he)]
            refine congrArg (Option.map · _) (funext fun g => ?_)
            rw [List.foldl_cons]
            congr 1
            unfold linkInto
            rw [if_neg he]
  rw [NxFile.resolved, h]
  exact key f.links ch

theorem linkInto_other (f : NxFile) (e : Str) (ls : List Link) (h : ∀ l ∈ ls, l.entry ≠ e) (g : H5) :
    ls.foldl (linkInto f e) g = g := by
  induction ls with
  | nil => rfl
  | cons l ls ih =>
    rw [List.foldl_cons, linkInto, if_neg (h l (by simp)), ih fun l' hl => h l' (by simp [hl])]

theorem at_setChild {t dg : H5} (h : t.at [kData] = some dg) (k : Str) (n : H5) :
    (t.modify (fun t => t.setChild k n) [kData]).at [kData] = some (dg.setChild k n) := at_modify h

theorem isDataset_setChild (t : H5) (k : Str) (n : H5) : (t.setChild k n).isDataset = t.isDataset := by cases t; rfl

theorem view_link_other {t dg : H5} (h : t.at [kData] = some dg) (k : Str) (n : H5) {q : List Str} (hq : ¬ [kData, k] <+: q) :
    (t.modify (fun t => t.setChild k n) [kData]).view q = t.view q := by
  by_cases hd : [kData] <+: q
  · obtain ⟨r, rfl⟩ := hd
    rw [view_modify_in (by simp [plain_data]) h, view_at (by simp [plain_data]) h, view_setChild_other]
    intro hr
    exact hq (by
      rw [show [kData, k] = [kData] ++ [k] from rfl]
      exact (List.prefix_append_right_inj _).2 hr)
  · exact view_modify_other hd

theorem view_link {t dg : H5} (h : t.at [kData] = some dg) (hd : dg.isDataset = false) {k : Str} (hk : Plain k) (n : H5) (r : List Str) :
    (t.modify (fun t => t.setChild k n) [kData]).view (kData :: k :: r) = n.view r := by
  rw [show kData :: k :: r = [kData] ++ (k :: r) from rfl, view_modify_in (by simp [plain_data]) h]
  cases dg with
  | node v a ch =>
    cases v with
    | some v => exact absurd hd (by simp [H5.isDataset])
    | none => rw [H5.setChild, H5.view_child hk, H5s.get?_set, if_pos rfl]; rfl

/-- Reading an entry: its links stand for what they lead to. -/
theorem view_links (f : NxFile) {a : List (Str × Leaf)} {ch : H5s} (hf : f.tree = .node none a ch) {name : Str} {g' : H5}
    (hg : ch.get? name = some g') (own : List (Str × List Str)) (hnd : (own.map Prod.fst).Nodup) (hpl : ∀ z ∈ own, Plain z.1)
    (hat : ∀ z ∈ own, ∃ n, g'.at z.2 = some n) :
    ∀ (t dg : H5), t.at [kData] = some dg → dg.isDataset = false →
    (∀ q, (∀ z ∈ own, ¬ [kData, z.1] <+: q) →
      ((own.map fun z => Link.mk name z.1 z.2).foldl (linkInto f name) t).view q = t.view q) ∧
    ∀ z ∈ own, ∀ n, g'.at z.2 = some n → ∀ r,
      ((own.map fun z => Link.mk name z.1 z.2).foldl (linkInto f name) t).view (kData :: z.1 :: r) = n.view r := by
  induction own with
  | nil => exact fun t dg h hd => ⟨fun q _ => rfl, fun z hz => absurd hz (by simp)⟩
  | cons z0 own ih =>
    intro t dg h hd
    rw [List.map_cons, List.nodup_cons] at hnd
    obtain ⟨n0, hn0⟩ := hat z0 (by simp)
    have ht : f.target ⟨name, z0.1, z0.2⟩ = some n0 := by
      rw [NxFile.target, hf, H5.at, hg, Option.bind_some, hn0]
    have hstep : linkInto f name t ⟨name, z0.1, z0.2⟩ = t.modify (fun t => t.setChild z0.1 n0) [kData] := by
      unfold linkInto
      rw [if_pos rfl, ht]
    obtain ⟨h1, h2⟩ := ih hnd.2 (fun z hz => hpl z (by simp [hz])) (fun z hz => hat z (by simp [hz])) _ _
      (at_setChild h z0.1 n0) (by rw [isDataset_setChild]; exact hd)
    rw [List.map_cons, List.foldl_cons, hstep]
    refine ⟨fun q hq => ?_, fun z hz n hn r => ?_⟩
    · rw [h1 q fun z hz => hq z (by simp [hz]), view_link_other h _ _ (hq z0 (by simp))]
    · rcases List.mem_cons.1 hz with rfl | hz
      · rw [hn0] at hn
        obtain rfl := Option.some.inj hn
        rw [h1 _ fun w hw hpre => hnd.1 ?_, view_link h hd (hpl z (by simp))]
        have := (List.cons_prefix_cons.1 (List.cons_prefix_cons.1 hpre).2).1
        exact this ▸ List.mem_map_of_mem hw
      · exact h2 z hz n hn r

end Tavi
