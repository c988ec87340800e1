import Verif.Props.PlotLinkDemo

/-! # C80: whatever is written under a name, new or not, the other entries of the file read as before -/

namespace Tavi

open Spec

/-- The links of an entry. -/
def linksOf (e : Str) (f : NxFile) : List Link := f.links.filter fun l => decide (l.entry = e)

/-- Two files with the same member `e` and the same links in it. -/
def SameAt (e : Str) (f f' : NxFile) : Prop :=
  ∃ v a ch ch', f.tree = .node v a ch ∧ f'.tree = .node v a ch' ∧ ch'.get? e = ch.get? e ∧ linksOf e f' = linksOf e f

theorem SameAt.refl (e : Str) (f : NxFile) : SameAt e f f := by
  obtain ⟨⟨v, a, ch⟩, ls⟩ := f
  exact ⟨v, a, ch, ch, rfl, rfl, rfl, rfl⟩

theorem SameAt.trans {e : Str} {f g h : NxFile} (p : SameAt e f g) (q : SameAt e g h) : SameAt e f h := by
  obtain ⟨v, a, ch, ch', h1, h2, h3, h4⟩ := p
  obtain ⟨w, b, c, c', k1, k2, k3, k4⟩ := q
  rw [h2] at k1
  cases k1
  exact ⟨v, a, ch, c', h1, k2, k3.trans h3, k4.trans h4⟩

theorem get_modify_other {e k : Str} (h : e ≠ k) (F : H5 → H5) (v : Option Leaf) (a : List (Str × Leaf)) (ch : H5s) (p : List Str) :
    ∃ ch', (H5.node v a ch).modify F (k :: p) = .node v a ch' ∧ ch'.get? e = ch.get? e := by
  rw [H5.modify]
  split
  · exact ⟨_, rfl, by rw [H5s.get?_set, if_neg h]⟩
  · exact ⟨_, rfl, rfl⟩

theorem get_modify_self (k : Str) (F : H5 → H5) (v : Option Leaf) (a : List (Str × Leaf)) (ch : H5s) (p : List Str) :
    ∃ ch', (H5.node v a ch).modify F (k :: p) = .node v a ch' ∧ ch'.get? k = (ch.get? k).map fun n => n.modify F p := by
  rw [H5.modify]
  split
  · rename_i n hn
    exact ⟨_, rfl, by rw [H5s.get?_set, if_pos rfl, hn]; rfl⟩
  · rename_i hn
    exact ⟨_, rfl, by rw [hn]; rfl⟩

theorem sameAt_modify {e name : Str} (h : e ≠ name) (F : H5 → H5) (p : List Str) (f : NxFile) :
    SameAt e f ⟨f.tree.modify F (name :: p), f.links⟩ := by
  obtain ⟨⟨v, a, ch⟩, ls⟩ := f
  obtain ⟨ch', h1, h2⟩ := get_modify_other h F v a ch p
  exact ⟨v, a, ch, ch', rfl, h1, h2, rfl⟩

theorem sameAt_unlink {e name : Str} (h : e ≠ name) (k : Str) (f : NxFile) : SameAt e f (f.unlink name k) := by
  obtain ⟨⟨v, a, ch⟩, ls⟩ := f
  refine ⟨v, a, ch, ch, rfl, rfl, rfl, ?_⟩
  unfold linksOf NxFile.unlink
  rw [List.filter_filter]
  refine List.filter_congr fun l _ => ?_
  by_cases hl : l.entry = e
  · simp [hl, h]
  · simp [hl]

theorem sameAt_link {e name : Str} (h : e ≠ name) (k : Str) (p : List Str) (f : NxFile) :
    SameAt e f ⟨f.tree, f.links ++ [⟨name, k, p⟩]⟩ := by
  obtain ⟨⟨v, a, ch⟩, ls⟩ := f
  refine ⟨v, a, ch, ch, rfl, rfl, rfl, ?_⟩
  unfold linksOf
  rw [List.filter_append]
  simp [Ne.symm h]

theorem sameAt_overwrite {e name : Str} (h : e ≠ name) : ∀ {d : Dict} {f f' : NxFile}, overwriteLinks name d f = .ok f' → SameAt e f f' := by
  intro d
  refine Dict.rec (motive_1 := fun _ => True) (motive_2 := fun d => ∀ {f f' : NxFile}, overwriteLinks name d f = .ok f' → SameAt e f f')
    (fun _ => trivial) (fun _ _ => trivial) ?_ ?_ d
  · intro f f' hf
    obtain rfl := Except.ok.inj (show Except.ok f = .ok f' from hf)
    exact SameAt.refl e f
  · intro k v rest _ ih f f' hf
    rw [overwriteLinks.eq_def] at hf
    simp only at hf
    split at hf
    · exact ih hf
    · cases v with
      | leaf l => exact ih hf
      | dict d =>
        simp only at hf
        split at hf
        · exact (sameAt_unlink h k f).trans (ih hf)
        · cases hf

theorem sameAt_write {e name : Str} (h : e ≠ name) {d : Dict} {f f' : NxFile} (hw : writeEntry d name f = .ok f') : SameAt e f f' := by
  unfold writeEntry at hw
  obtain ⟨t, ht, hw⟩ := py_bind_eq_ok.1 hw
  obtain ⟨g, hg, hw⟩ := py_bind_eq_ok.1 hw
  obtain rfl := Except.ok.inj hw
  have hl : SameAt e f g := by
    split at hg
    · exact sameAt_overwrite h hg
    · obtain rfl := Except.ok.inj hg; exact SameAt.refl e f
  obtain ⟨⟨v, a, ch⟩, ls⟩ := f
  unfold toNexus at ht
  obtain ⟨n, _, ht⟩ := py_bind_eq_ok.1 ht
  obtain ⟨m, _, ht⟩ := py_bind_eq_ok.1 ht
  obtain ⟨_, _, _, _, _, _, _, hl⟩ := hl
  cases v with
  | some v => cases ht
  | none =>
    change H5.put (.node none a ch) name m = .ok t at ht
    rw [H5.put] at ht
    obtain rfl := Except.ok.inj ht
    exact ⟨none, a, ch, _, rfl, rfl, by rw [H5s.get?_set, if_neg h], hl⟩

theorem sameAt_makeRoom {e name : Str} (h : e ≠ name) {val : Str} {data : H5} {f f' : NxFile} (hm : makeRoom name val data f = .ok f') :
    SameAt e f f' := by
  unfold makeRoom at hm
  split at hm
  · split at hm
    · obtain rfl := Except.ok.inj hm
      exact sameAt_modify h _ _ f
    · cases hm
  · split at hm
    · obtain rfl := Except.ok.inj hm; exact SameAt.refl e f
    · split at hm
      · split at hm
        · obtain rfl := Except.ok.inj hm; exact sameAt_unlink h _ f
        · cases hm
      · cases hm

theorem sameAt_linkAxis {e name : Str} (h : e ≠ name) {pre val : Str} {p : List Str} {f f' : NxFile} (hm : linkAxis pre name val p f = .ok f') :
    SameAt e f f' := by
  unfold linkAxis at hm
  split at hm
  · obtain rfl := Except.ok.inj hm; exact SameAt.refl e f
  · split at hm
    · obtain rfl := Except.ok.inj hm; exact SameAt.refl e f
    · split at hm
      · obtain rfl := Except.ok.inj hm; exact SameAt.refl e f
      · split at hm
        · cases hm
        · obtain ⟨f1, h1, hm⟩ := py_bind_eq_ok.1 hm
          obtain rfl := Except.ok.inj hm
          exact (sameAt_makeRoom h h1).trans ((sameAt_modify h _ _ f1).trans (sameAt_link h _ _ _))

theorem sameAt_linkFound {e name : Str} (h : e ≠ name) {pre : Str} {o : Option (Str × List Str)} {f f' : NxFile}
    (hm : linkFound pre name o f = .ok f') : SameAt e f f' := by
  unfold linkFound at hm
  split at hm
  · exact sameAt_linkAxis h hm
  · obtain rfl := Except.ok.inj hm; exact SameAt.refl e f

theorem sameAt_makeLinks {e name : Str} (h : e ≠ name) {pre : Str} {f f' : NxFile} (hm : makeLinks pre name f = .ok f') : SameAt e f f' := by
  unfold makeLinks at hm
  split at hm
  · obtain rfl := Except.ok.inj hm; exact SameAt.refl e f
  · split at hm
    · obtain rfl := Except.ok.inj hm; exact SameAt.refl e f
    · obtain ⟨y, _, hm⟩ := py_bind_eq_ok.1 hm
      obtain ⟨x, _, hm⟩ := py_bind_eq_ok.1 hm
      obtain ⟨f1, h1, hm⟩ := py_bind_eq_ok.1 hm
      exact (sameAt_linkFound h h1).trans (sameAt_linkFound h hm)

theorem sameAt_toNexus {e name : Str} (h : e ≠ name) {pre : Str} {d : Dict} {f f' : NxFile} (hm : toNexusIn pre d name f = .ok f') : SameAt e f f' := by
  unfold toNexusIn at hm
  obtain ⟨f1, h1, hm⟩ := py_bind_eq_ok.1 hm
  exact (sameAt_write h h1).trans (sameAt_makeLinks h hm)

/-- One step of `NxFile.resolved`. -/
def resolveStep (f : NxFile) (t : H5) (l : Link) : H5 := match f.target l with | some n => addLink l.entry l.name n t | none => t

theorem step_other {e : Str} {f : NxFile} {l : Link} (h : l.entry ≠ e) (v : Option Leaf) (a : List (Str × Leaf)) (ch : H5s) :
    ∃ ch', resolveStep f (.node v a ch) l = .node v a ch' ∧ ch'.get? e = ch.get? e := by
  unfold resolveStep
  split
  · exact get_modify_other (Ne.symm h) _ v a ch _
  · exact ⟨ch, rfl, rfl⟩

theorem resolve_fold {e : Str} {f f' : NxFile} (ht : ∀ l : Link, l.entry = e → f'.target l = f.target l) : ∀ (ls ls' : List Link)
    (v : Option Leaf) (a : List (Str × Leaf)) (ch ch' : H5s), ch'.get? e = ch.get? e →
    ls'.filter (fun l => decide (l.entry = e)) = ls.filter (fun l => decide (l.entry = e)) →
    ∃ c c', ls.foldl (resolveStep f) (.node v a ch) = .node v a c ∧ ls'.foldl (resolveStep f') (.node v a ch') = .node v a c' ∧ c'.get? e = c.get? e := by
  intro ls
  induction ls with
  | nil =>
    intro ls'
    induction ls' with
    | nil => exact fun v a ch ch' h _ => ⟨ch, ch', rfl, rfl, h⟩
    | cons l' ls' ih =>
      intro v a ch ch' h hf
      have hl : l'.entry ≠ e := by
        intro c
        rw [List.filter_cons_of_pos (by simpa using c)] at hf
        cases hf
      rw [List.filter_cons_of_neg (by simpa using hl)] at hf
      obtain ⟨c', k1, k2⟩ := step_other (f := f') hl v a ch'
      rw [List.foldl_cons, k1]
      exact ih v a ch c' (k2.trans h) hf
  | cons l ls ih =>
    intro ls'
    by_cases hl : l.entry = e
    · induction ls' with
      | nil =>
        intro v a ch ch' _ hf
        rw [List.filter_cons_of_pos (by simpa using hl)] at hf
        cases hf
      | cons l' ls' ih' =>
        intro v a ch ch' h hf
        by_cases hl' : l'.entry = e
        · rw [List.filter_cons_of_pos (a := l) (by simpa using hl), List.filter_cons_of_pos (a := l') (by simpa using hl')] at hf
          obtain ⟨rfl, hf2⟩ := List.cons.inj hf
          have key : ∃ c c', resolveStep f (.node v a ch) l' = .node v a c ∧ resolveStep f' (.node v a ch') l' = .node v a c' ∧
              c'.get? e = c.get? e := by
            unfold resolveStep
            rw [ht l' hl]
            split
            · rename_i n _
              obtain ⟨c, k1, k2⟩ := get_modify_self l'.entry (fun data => data.setChild l'.name n) v a ch [kData]
              obtain ⟨c', k3, k4⟩ := get_modify_self l'.entry (fun data => data.setChild l'.name n) v a ch' [kData]
              rw [hl] at k2 k4
              exact ⟨c, c', k1, k3, by rw [k2, k4, h]⟩
            · exact ⟨ch, ch', rfl, rfl, h⟩
          obtain ⟨c, c', k1, k2, k3⟩ := key
          rw [List.foldl_cons, List.foldl_cons, k1, k2]
          exact ih ls' v a c c' k3 hf2
        · rw [List.filter_cons_of_neg (a := l') (by simpa using hl')] at hf
          obtain ⟨c', k1, k2⟩ := step_other (f := f') hl' v a ch'
          rw [List.foldl_cons (b := Tavi.H5.node v a ch') , k1]
          exact ih' v a ch c' (k2.trans h) hf
    · intro v a ch ch' h hf
      rw [List.filter_cons_of_neg (a := l) (by simpa using hl)] at hf
      obtain ⟨c, k1, k2⟩ := step_other (f := f) hl v a ch
      rw [List.foldl_cons, k1]
      exact ih ls' v a c ch' (h.trans k2.symm) hf

theorem resolved_same {e : Str} {f f' : NxFile} (h : SameAt e f f') : f'.resolved.children.get? e = f.resolved.children.get? e := by
  obtain ⟨v, a, ch, ch', h1, h2, h3, h4⟩ := h
  have ht : ∀ l : Link, l.entry = e → f'.target l = f.target l := by
    intro l hl
    unfold NxFile.target
    rw [h1, h2, hl]
    cases v with
    | none => rw [H5.at, H5.at, h3]
    | some v => rfl
  obtain ⟨c, c', k1, k2, k3⟩ := resolve_fold ht f.links f'.links v a ch ch' h3 h4
  have e1 : f.resolved = .node v a c := by rw [← k1, ← h1]; rfl
  have e2 : f'.resolved = .node v a c' := by rw [← k2, ← h2]; rfl
  rw [e1, e2]
  exact k3

/-- **C80** Whatever is written under a name, whether or not there was an entry of that name and whatever links the file has, every other entry
reads as before: alone by its number, or with the whole file. -/
theorem C80_others {pre : Str} {d : Dict} {name : Str} {f f' : NxFile} (h : toNexusIn pre d name f = .ok f') :
    (∀ n, scanName n ≠ name → fromNexusFile f' (some n) = fromNexusFile f (some n)) ∧
    ∀ r r₀, fromNexusFile f' none = .ok r → fromNexusFile f none = .ok r₀ → ∀ e, e ≠ name → ∀ p, view r (e :: p) = view r₀ (e :: p) := by
  refine ⟨fun n hn => ?_, fun r r₀ hr hr₀ e he p => ?_⟩
  · unfold fromNexusFile fromNexus
    simp only
    rw [resolved_same (sameAt_toNexus hn h)]
  · obtain rfl := Except.ok.inj (show Except.ok (readMembers f'.resolved.children) = .ok r from hr)
    obtain rfl := Except.ok.inj (show Except.ok (readMembers f.resolved.children) = .ok r₀ from hr₀)
    rw [view, view, get?_readMembers, get?_readMembers, resolved_same (sameAt_toNexus he h)]

namespace Demo

/-- An entry with a default plot against the name of the sample. -/
def byName : Dict :=
  .cons "data".toList (.dict (.cons "attrs".toList (.dict (.cons "signal".toList (.leaf (.str "detector".toList))
    (.cons "axes".toList (.leaf (.str "name".toList)) .nil))) .nil)) <|
  .cons "sample".toList (.dict (.cons "name".toList (.dict (.cons "dataset".toList (.leaf (.str "Cu".toList)) .nil)) .nil)) .nil

/-- What is stored of it under a name. -/
def byNameNode (name : Str) : H5 :=
  .node none [] (.cons "data".toList
      (.node none [("signal".toList, .str "detector".toList), ("axes".toList, .str "name".toList)] .nil)
      (.cons "sample".toList (.node none []
        (.cons "name".toList (.node (some (.str "Cu".toList)) [("target".toList, .str ('/' :: name ++ "/sample/name".toList))] .nil) .nil)) .nil))

/-- Two such entries, each with its link. -/
def twoEntries : NxFile :=
  ⟨.node none [] (.cons "scan0001".toList (byNameNode "scan0001".toList) (.cons "scan0002".toList (byNameNode "scan0002".toList) .nil)),
    [⟨"scan0001".toList, "name".toList, ["sample".toList, "name".toList]⟩, ⟨"scan0002".toList, "name".toList, ["sample".toList, "name".toList]⟩]⟩

/-- C80: the first entry is written again; the second still shows the name of its sample in the plot group. -/
example : ∃ f', toNexusFile byName "scan0001".toList twoEntries = .ok f' ∧ fromNexusFile f' (some 2) = fromNexusFile twoEntries (some 2) ∧
    ∃ r, fromNexusFile f' (some 2) = .ok r ∧ (view r ["scan0002".toList, "data".toList, "name".toList]).map Prod.fst = some (some (.str "Cu".toList)) := by
  have h : toNexusFile byName "scan0001".toList twoEntries = .ok
      ⟨.node none [] (.cons "scan0001".toList (byNameNode "scan0001".toList) (.cons "scan0002".toList (byNameNode "scan0002".toList) .nil)),
        [⟨"scan0002".toList, "name".toList, ["sample".toList, "name".toList]⟩, ⟨"scan0001".toList, "name".toList, ["sample".toList, "name".toList]⟩]⟩ := by
    rfl
  have e : scanName 2 = "scan0002".toList := by simp [scanName, pad4, decStr]; rfl
  have hr : fromNexusFile twoEntries (some 2) = .ok (.cons (scanName 2) (.dict (readMembers (H5.children
      (.node none [] (.cons "data".toList
        (.node none [("signal".toList, .str "detector".toList), ("axes".toList, .str "name".toList)]
          (.cons "name".toList (.node (some (.str "Cu".toList)) [("target".toList, .str ("/scan0002/sample/name".toList))] .nil) .nil))
      (.cons "sample".toList (.node none []
        (.cons "name".toList (.node (some (.str "Cu".toList)) [("target".toList, .str ("/scan0002/sample/name".toList))] .nil) .nil)) .nil)))))) .nil) := by
    unfold fromNexusFile fromNexus
    simp only
    rw [e]
    rfl
  have same := (C80_others h).1 2 (by rw [e]; decide)
  refine ⟨_, h, same, _, same.trans hr, ?_⟩
  rw [e]
  rfl

end Demo

end Tavi
