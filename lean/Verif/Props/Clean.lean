import Verif.Props.ReadBack

/-!
# No member of a written file is called `attrs`
-/

namespace Tavi

open Spec

mutual
/-- No member is called `attrs`, at any depth. -/
def H5.Clean : H5 → Prop
  | .node _ _ ch => ch.Clean
/-- The same for members. -/
def H5s.Clean : H5s → Prop
  | .nil => True
  | .cons k n rest => k ≠ kAttrs ∧ n.Clean ∧ rest.Clean
end

theorem clean_node {v : Option Leaf} {a : List (Str × Leaf)} {ch : H5s} : (H5.node v a ch).Clean ↔ ch.Clean := by
  rw [H5.Clean]

theorem clean_get {ch : H5s} (h : ch.Clean) {k : Str} {n : H5} (hg : ch.get? k = some n) : k ≠ kAttrs ∧ n.Clean := by
  induction ch using H5s.rec (motive_1 := fun _ => True) with
  | node => trivial
  | nil => exact absurd hg (by simp [H5s.get?])
  | cons k' m rest _ ih =>
    rw [H5s.Clean] at h
    rw [H5s.get?] at hg
    split at hg
    · rename_i e
      rw [← Option.some.inj hg, ← e]; exact ⟨h.1, h.2.1⟩
    · exact ih h.2.2 hg

theorem clean_set {ch : H5s} (h : ch.Clean) {k : Str} (hk : k ≠ kAttrs) {n : H5} (hn : n.Clean) : (ch.set k n).Clean := by
  induction ch using H5s.rec (motive_1 := fun _ => True) with
  | node => trivial
  | nil => rw [H5s.set, H5s.Clean]; exact ⟨hk, hn, h⟩
  | cons k' m rest _ ih =>
    rw [H5s.Clean] at h
    rw [H5s.set]
    split
    · rw [H5s.Clean]; exact ⟨h.1, hn, h.2.2⟩
    · rw [H5s.Clean]; exact ⟨h.1, h.2.1, ih h.2.2⟩

theorem clean_erase {ch : H5s} (h : ch.Clean) (k : Str) : (ch.erase k).Clean := by
  induction ch using H5s.rec (motive_1 := fun _ => True) with
  | node => trivial
  | nil => exact h
  | cons k' m rest _ ih =>
    rw [H5s.Clean] at h
    rw [H5s.erase]
    split
    · exact ih h.2.2
    · rw [H5s.Clean]; exact ⟨h.1, h.2.1, ih h.2.2⟩

theorem clean_modify {f : H5 → H5} (hf : ∀ t, t.Clean → (f t).Clean) : ∀ {p : List Str} {t : H5}, t.Clean → (t.modify f p).Clean
  | [], t, h => by rw [H5.modify]; exact hf t h
  | k :: ks, .node v a ch, h => by
    rw [clean_node] at h
    rw [H5.modify]
    split
    · rename_i n hn
      obtain ⟨hk, hc⟩ := clean_get h hn
      rw [clean_node]
      exact clean_set h hk (clean_modify hf hc)
    · exact clean_node.2 h

theorem clean_at : ∀ {p : List Str} {t n : H5}, t.Clean → t.at p = some n → n.Clean
  | [], t, n, h, hn => by rw [H5.at] at hn; rw [← Option.some.inj hn]; exact h
  | k :: ks, .node (some v) a ch, n, h, hn => by rw [H5.at] at hn; exact absurd hn (by simp)
  | k :: ks, .node none a ch, n, h, hn => by
    rw [H5.at] at hn
    obtain ⟨m, hm, hn⟩ := Option.bind_eq_some_iff.1 hn
    rw [clean_node] at h
    exact clean_at (clean_get h hm).2 hn

theorem clean_setAttr {t : H5} (h : t.Clean) (k : Str) (v : Leaf) : (t.setAttr k v).Clean := by
  cases t; rw [H5.setAttr, clean_node]; exact clean_node.1 h

theorem clean_eraseChild {t : H5} (h : t.Clean) (k : Str) : (t.eraseChild k).Clean := by
  cases t; rw [H5.eraseChild, clean_node]; exact clean_erase (clean_node.1 h) k

theorem clean_setChild {t : H5} (h : t.Clean) {k : Str} (hk : k ≠ kAttrs) {n : H5} (hn : n.Clean) : (t.setChild k n).Clean := by
  cases t; rw [H5.setChild, clean_node]; exact clean_set (clean_node.1 h) hk hn

theorem clean_children {t : H5} (h : t.Clean) : t.children.Clean := by
  cases t; exact clean_node.1 h

/-- What is found is not called `attrs`. -/
theorem findIn_clean (val : Str) (t : H5) (h : t.Clean) {p : List Str} (hp : findIn val t = some p) : val ≠ kAttrs := by
  refine H5.rec (motive_1 := fun t => t.Clean → ∀ p, findIn val t = some p → val ≠ kAttrs)
    (motive_2 := fun ch => ch.Clean → ∀ p, findVal val ch = some p → val ≠ kAttrs) ?_ ?_ ?_ t h p hp
  · intro v a ch ih h p hp
    cases v with
    | none => rw [findIn] at hp; exact ih (clean_node.1 h) p hp
    | some v => rw [findIn] at hp; exact absurd hp (by simp)
  · intro _ p hp; rw [findVal] at hp; exact absurd hp (by simp)
  · intro k n rest ih1 ih2 h p hp
    rw [H5s.Clean] at h
    rw [findVal] at hp
    split at hp
    · exact ih2 h.2.2 p hp
    · split at hp
      · rename_i e; rw [e]; exact h.1
      · split at hp
        · rename_i p' hp'; exact ih1 h.2.1 p' hp'
        · exact ih2 h.2.2 p hp

theorem clean_kids (d : Dict) : (kids d).Clean := by
  refine Dict.rec (motive_1 := fun v => (nodeVal v).Clean) (motive_2 := fun d => (kids d).Clean) ?_ ?_ ?_ ?_ d
  · intro l; rw [nodeVal, H5.empty, clean_node]; trivial
  · intro d ih; rw [nodeVal, clean_node]; exact ih
  · trivial
  · intro k v rest h1 h2
    rw [kids]
    split
    · exact h2
    · rename_i h
      rw [not_or] at h
      rw [H5s.Clean]; exact ⟨h.1, h1, h2⟩

theorem clean_nodeOf (d : Dict) : (nodeOf d).Clean := by rw [nodeOf, clean_node]; exact clean_kids d

/-- A file without such members. -/
def NxFile.Clean (f : NxFile) : Prop := f.tree.Clean ∧ ∀ l ∈ f.links, l.name ≠ kAttrs

theorem clean_makeRoom {name val : Str} {data : H5} {f f' : NxFile} (h : f.Clean) (hm : makeRoom name val data f = .ok f') :
    f'.Clean := by
  have hun : ∀ k, (f.unlink name k).Clean := fun k => ⟨h.1, fun l hl => h.2 l (List.mem_filter.1 hl).1⟩
  unfold makeRoom at hm
  split at hm
  · split at hm
    · obtain rfl := Except.ok.inj hm
      exact ⟨clean_modify (fun t ht => clean_eraseChild ht _) h.1, h.2⟩
    · cases hm
  · split at hm
    · obtain rfl := Except.ok.inj hm; exact h
    · split at hm
      · split at hm
        · obtain rfl := Except.ok.inj hm; exact hun _
        · cases hm
      · cases hm

theorem clean_linkAxis {pre name val : Str} (hv : val ≠ kAttrs) {p : List Str} {f f' : NxFile} (h : f.Clean)
    (hm : linkAxis pre name val p f = .ok f') : f'.Clean := by
  unfold linkAxis at hm
  split at hm
  · obtain rfl := Except.ok.inj hm; exact h
  · split at hm
    · obtain rfl := Except.ok.inj hm; exact h
    · split at hm
      · obtain rfl := Except.ok.inj hm; exact h
      · split at hm
        · cases hm
        · obtain ⟨f1, h1, hm⟩ := py_bind_eq_ok.1 hm
          obtain rfl := Except.ok.inj hm
          have hc := clean_makeRoom h h1
          refine ⟨clean_modify (fun t ht => clean_setAttr ht _ _) hc.1, fun l hl => ?_⟩
          rcases List.mem_append.1 hl with hl | hl
          · exact hc.2 l hl
          · rw [List.mem_singleton.1 hl]; exact hv

theorem clean_linkFound {pre name : Str} {y : Leaf} {g : H5} (hg : g.Clean) {f f' : NxFile} (h : f.Clean)
    (hm : linkFound pre name (findAxis y g) f = .ok f') : f'.Clean := by
  unfold linkFound at hm
  split at hm
  · rename_i s p hs
    refine clean_linkAxis ?_ h hm
    rw [findAxis] at hs
    obtain ⟨s', _, hs⟩ := Option.bind_eq_some_iff.1 hs
    obtain ⟨p', hp', e⟩ := Option.map_eq_some_iff.1 hs
    rw [← (Prod.mk.inj e).1]
    exact findIn_clean s' g hg hp'
  · obtain rfl := Except.ok.inj hm; exact h

theorem clean_makeLinks {pre name : Str} {f f' : NxFile} (h : f.Clean) (hm : makeLinks pre name f = .ok f') : f'.Clean := by
  unfold makeLinks at hm
  split at hm
  · obtain rfl := Except.ok.inj hm; exact h
  · rename_i g hg
    have hgc : g.Clean := (clean_get (clean_children h.1) hg).2
    split at hm
    · obtain rfl := Except.ok.inj hm; exact h
    · obtain ⟨y, _, hm⟩ := py_bind_eq_ok.1 hm
      obtain ⟨x, _, hm⟩ := py_bind_eq_ok.1 hm
      obtain ⟨f1, h1, hm⟩ := py_bind_eq_ok.1 hm
      exact clean_linkFound hgc (clean_linkFound hgc h h1) hm

theorem clean_resolved {f : NxFile} (h : f.Clean) : f.resolved.Clean := by
  have key : ∀ (ls : List Link) (t : H5), (∀ l ∈ ls, l.name ≠ kAttrs) → t.Clean →
      (ls.foldl (fun t l => match f.target l with | some n => addLink l.entry l.name n t | none => t) t).Clean := by
    intro ls
    induction ls with
    | nil => exact fun t _ ht => ht
    | cons l ls ih =>
      intro t hl ht
      rw [List.foldl_cons]
      refine ih _ (fun l' h' => hl l' (List.mem_cons_of_mem _ h')) ?_
      split
      · rename_i n hn
        rw [addLink]
        exact clean_modify (fun t' ht' => clean_setChild ht' (hl l List.mem_cons_self) (clean_at h.1 hn)) ht
      · exact ht
  exact key f.links f.tree h.2 h.1

/-- A new entry in a file. -/
theorem clean_in {pre : Str} {d : Dict} (hd : Tidy d) {name : Str} (hn : name ≠ kAttrs) {f f' : NxFile} {a : List (Str × Leaf)} {ch : H5s}
    (hf : f.tree = .node none a ch) (hnew : ch.get? name = none) (hl : ∀ l ∈ f.links, l.entry ≠ name) (hc : f.Clean)
    (h : toNexusIn pre d name f = .ok f') : f'.Clean := by
  rw [toNexusIn] at h
  obtain ⟨f1, h1, h⟩ := py_bind_eq_ok.1 h
  refine clean_makeLinks ?_ h
  have hw : writeEntry d name f = .ok ⟨.node none a (ch.set name (nodeOf d)), f.links⟩ := by
    unfold writeEntry
    rw [hf, toNexus_new hd hnew, py_bind_ok]
    split
    · rw [overwriteLinks_none name _ f hl, py_bind_ok]
    · rw [py_bind_ok]
  rw [hw] at h1
  obtain rfl := Except.ok.inj h1
  have hc1 := hc.1
  rw [hf] at hc1
  exact ⟨clean_node.2 (clean_set (clean_node.1 hc1) hn (clean_nodeOf d)), hc.2⟩

/-- The attributes of a group that was read stand first, and there only. -/
theorem clean_attrs {a : List (Str × Leaf)} {ch : H5s} (h : ch.Clean) {v : Val}
    (hm : (kAttrs, v) ∈ items (readNode (.node none a ch))) : v = .dict (attrsDict a) := by
  rw [readNode, items, List.mem_cons] at hm
  rcases hm with hm | hm
  · exact (Prod.mk.inj hm).2
  · exfalso
    induction ch using H5s.rec (motive_1 := fun _ => True) with
    | node => trivial
    | nil => exact absurd hm (by simp [readMembers, items])
    | cons k n rest _ ih =>
      rw [H5s.Clean] at h
      rw [readMembers, items, List.mem_cons] at hm
      rcases hm with hm | hm
      · exact h.1 (Prod.mk.inj hm).1.symm
      · exact ih h.2.2 hm

theorem mem_readMembers {ch : H5s} {k : Str} {v : Val} (hm : (k, v) ∈ items (readMembers ch)) (h : ch.Clean) :
    k ≠ kAttrs ∧ ∃ n, n.Clean ∧ v = .dict (readNode n) := by
  induction ch using H5s.rec (motive_1 := fun _ => True) with
  | node => trivial
  | nil => exact absurd hm (by simp [readMembers, items])
  | cons k' n rest _ ih =>
    rw [H5s.Clean] at h
    rw [readMembers, items, List.mem_cons] at hm
    rcases hm with hm | hm
    · rw [(Prod.mk.inj hm).1]; exact ⟨h.1, n, h.2.1, (Prod.mk.inj hm).2⟩
    · exact ih hm h.2.2

end Tavi
