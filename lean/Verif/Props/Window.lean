import Verif.Model.Window
import Verif.Props.Loading

/-!
# What the main window shows (C87)
-/

namespace Tavi

open Spec

/-! ## What the statements refer to -/

/-- The title of a folder whose first file is `f`: the second part of a name with `exp`, otherwise `Folder`. -/
inductive Spec.Title : Str → Str → Prop
  | two (a t : Str) : '_' ∉ a → '_' ∉ t → "exp".toList <:+: a ++ "_".toList ++ t → Title (a ++ "_".toList ++ t) t
  | more (a t r : Str) : '_' ∉ a → '_' ∉ t → "exp".toList <:+: a ++ "_".toList ++ t ++ "_".toList ++ r →
      Title (a ++ "_".toList ++ t ++ "_".toList ++ r) t
  | plain (f : Str) : ¬ "exp".toList <:+: f → Title f "Folder".toList

/-- The node for a folder with these entries: all of them, sorted, under the title of the first. -/
def Spec.NodeFor (entries : List Str) (node : Str × List Str) : Prop :=
  node.2.Perm entries ∧ node.2.Pairwise (· ≤ ·) ∧ ∃ f, node.2.head? = some f ∧ Title f node.1

/-- The folder whose entries an action loads. -/
def Spec.loadedBy : UserAct → Option (List Str)
  | .load ls (p :: _) _ => match ls p with
    | .ok entries => some entries
    | .error _ => none
  | _ => none

/-- The workers finish each entry once. -/
def Spec.Fair : UserAct → Prop
  | .load ls (p :: _) finished => ∀ entries, ls p = .ok entries → finished.Perm entries
  | _ => True

/-- The folder can be shown: there is something in it, and names with `exp` have two parts. -/
def Spec.Showable (entries : List Str) : Prop := entries ≠ [] ∧ ∀ f ∈ entries, "exp".toList <:+: f → '_' ∈ f

/-! ## The tree -/

theorem title_of {f : Str} (h : "exp".toList <:+: f → '_' ∈ f) :
    ∃ t, (if isSubstr "exp".toList f then need (splitChar '_' f)[1]? .indexError else .ok "Folder".toList) = Except.ok t ∧ Title f t := by
  by_cases he : "exp".toList <:+: f
  · rw [if_pos ((isSubstr_iff _ _).2 he)]
    obtain ⟨a, w, rfl, ha⟩ := split_first (h he)
    by_cases hw : '_' ∈ w
    · obtain ⟨t, r, rfl, ht⟩ := split_first hw
      refine ⟨t, by rw [splitChar_cons ha, splitChar_cons ht]; rfl, ?_⟩
      have : a ++ '_' :: (t ++ '_' :: r) = a ++ "_".toList ++ t ++ "_".toList ++ r := by
        show _ = a ++ ['_'] ++ t ++ ['_'] ++ r
        simp
      rw [this] at he ⊢
      exact .more a t r ha ht he
    · refine ⟨w, by rw [splitChar_cons ha, splitChar_plain hw]; rfl, ?_⟩
      have : a ++ '_' :: w = a ++ "_".toList ++ w := by
        show _ = a ++ ['_'] ++ w
        simp
      rw [this] at he ⊢
      exact .two a w ha hw he
  · rw [if_neg (fun hc => he ((isSubstr_iff _ _).1 hc))]
    exact ⟨_, rfl, .plain f he⟩

theorem treeNode_ok {p : Project} {entries finished : List Str} (hf : finished.Perm entries) (hs : Showable entries) :
    ∃ node, treeNode (p.load entries finished).2 = .ok node ∧ NodeFor entries node := by
  obtain ⟨_, _, h1, h2, _⟩ := C55_load p entries finished hf
  generalize (p.load entries finished).2 = names at h1 h2
  cases names with
  | nil => exact absurd (List.nil_perm.1 h1) hs.1
  | cons f l =>
    obtain ⟨t, ht, hT⟩ := title_of (hs.2 f (h1.mem_iff.1 List.mem_cons_self))
    refine ⟨(t, f :: l), ?_, h1, h2, f, rfl, hT⟩
    rw [treeNode, List.head?_cons, need_some, py_bind_ok, ht]; rfl

theorem run_append (w : Window) (a b : List UserAct) : w.run (a ++ b) = (w.run a).run b := List.foldl_append

theorem select_keeps (w : Window) (file : Str) : (w.select file).1.tree = w.tree ∧ (w.select file).1.project.fileList = w.project.fileList := by
  rw [Window.select]
  split
  · exact ⟨rfl, rfl⟩
  · split <;> exact ⟨rfl, rfl⟩

theorem click_keeps (w : Window) (i : ℕ) (j : Option ℕ) :
    (w.click i j).1.tree = w.tree ∧ (w.click i j).1.project.fileList = w.project.fileList := by
  unfold Window.click
  split
  · exact ⟨rfl, rfl⟩
  · split
    · exact ⟨rfl, rfl⟩
    · split
      · exact ⟨rfl, rfl⟩
      · exact select_keeps _ _

/-- **C87** (partial): after any number of actions the tree has one node for every folder that could be read, in the order they
were loaded, each with the sorted files of the folder. Missing: folders that are empty, or whose first file has `exp` in a name
without underscore, see `C87_not_shown`. -/
theorem C87_tree_partial (acts : List UserAct) (hfair : ∀ a ∈ acts, Fair a)
    (hshow : ∀ a ∈ acts, ∀ entries, loadedBy a = some entries → Showable entries) :
    List.Forall₂ NodeFor (acts.filterMap loadedBy) (Window.new.run acts).tree := by
  suffices key : ∀ (w : Window) (L : List (List Str)), List.Forall₂ NodeFor L w.tree →
      List.Forall₂ NodeFor (L ++ acts.filterMap loadedBy) (w.run acts).tree from key Window.new [] .nil
  induction acts with
  | nil => intro w L h; rw [List.filterMap_nil, List.append_nil]; exact h
  | cons a acts ih =>
    intro w L h
    have ih := ih (fun b hb => hfair b (List.mem_cons_of_mem _ hb)) (fun b hb => hshow b (List.mem_cons_of_mem _ hb))
    have ha := hfair a List.mem_cons_self
    have hs := hshow a List.mem_cons_self
    show List.Forall₂ NodeFor _ ((w.act a).1.run acts).tree
    cases a with
    | click i j =>
      rw [List.filterMap_cons_none rfl]
      refine ih _ _ ?_
      show List.Forall₂ NodeFor L (w.click i j).1.tree
      rw [(click_keeps w i j).1]
      exact h
    | load ls paths finished =>
      cases paths with
      | nil => rw [List.filterMap_cons_none rfl]; exact ih _ _ h
      | cons p ps =>
        cases hl : ls p with
        | error e =>
          rw [List.filterMap_cons_none (by rw [loadedBy, hl])]
          refine ih _ _ ?_
          show List.Forall₂ NodeFor L (w.load ls (p :: ps) finished).1.tree
          rw [Window.load, hl]
          exact h
        | ok entries =>
          have hlb : loadedBy (.load ls (p :: ps) finished) = some entries := by rw [loadedBy, hl]
          obtain ⟨node, h1, h2⟩ := treeNode_ok (p := w.project) (ha entries hl) (hs entries hlb)
          rw [List.filterMap_cons_some hlb, List.append_cons]
          refine ih _ _ ?_
          show List.Forall₂ NodeFor _ (w.load ls (p :: ps) finished).1.tree
          rw [Window.load, hl]
          dsimp only
          rw [h1]
          exact List.rel_append h (.cons h2 .nil)

/-- **C87**: after any number of actions every file shown in the tree is in the list of files of the project. -/
theorem C87_known (acts : List UserAct) (node : Str × List Str) (hn : node ∈ (Window.new.run acts).tree) (file : Str)
    (hf : file ∈ node.2) : file ∈ (Window.new.run acts).project.fileList := by
  suffices key : ∀ w : Window, (∀ node ∈ w.tree, ∀ f ∈ node.2, f ∈ w.project.fileList) →
      ∀ node ∈ (w.run acts).tree, ∀ f ∈ node.2, f ∈ (w.run acts).project.fileList from
    key Window.new (fun node hn => absurd hn (by simp [Window.new])) node hn file hf
  clear hn hf
  induction acts with
  | nil => intro w h; exact h
  | cons a acts ih =>
    intro w h
    show ∀ node ∈ ((w.act a).1.run acts).tree, ∀ f ∈ node.2, f ∈ ((w.act a).1.run acts).project.fileList
    refine ih _ ?_
    cases a with
    | click i j =>
      show ∀ node ∈ (w.click i j).1.tree, ∀ f ∈ node.2, f ∈ (w.click i j).1.project.fileList
      rw [(click_keeps w i j).1, (click_keeps w i j).2]
      exact h
    | load ls paths finished =>
      show ∀ node ∈ (w.load ls paths finished).1.tree, ∀ f ∈ node.2, f ∈ (w.load ls paths finished).1.project.fileList
      cases paths with
      | nil => exact h
      | cons p ps =>
        rw [Window.load]
        cases hl : ls p with
        | error e => exact h
        | ok entries =>
          have e1 : (w.project.load entries finished).1.fileList = w.project.fileList ++ finished := by
            simp only [Project.load, Project.collect_eq, Project.flush, List.nil_append]
          have e2 : (w.project.load entries finished).2.Perm finished := by
            simp only [Project.load, Project.collect_eq, Project.flush, List.nil_append]
            exact sortStr_perm _
          have hold : ∀ node ∈ w.tree, ∀ f ∈ node.2, f ∈ (w.project.load entries finished).1.fileList := fun node hn f hf => by
            rw [e1]; exact List.mem_append_left _ (h node hn f hf)
          dsimp only
          cases ht : treeNode (w.project.load entries finished).2 with
          | error e => exact hold
          | ok node' =>
            intro node hn f hf
            rcases List.mem_append.1 hn with hn | hn
            · exact hold node hn f hf
            · obtain rfl := List.mem_singleton.1 hn
              rw [treeNode] at ht
              obtain ⟨f0, _, ht⟩ := py_bind_eq_ok.1 ht
              obtain ⟨t, _, rfl⟩ := map_eq_ok.1 ht
              show f ∈ (w.project.load entries finished).1.fileList
              rw [e1]
              exact List.mem_append_right _ (e2.mem_iff.1 hf)

/-! ## Clicking on a file -/

theorem select_known {w : Window} {file n : Str} (h0 : file ≠ []) (hk : file ∈ w.project.fileList) (hn : nextName file = .ok n) :
    w.select file = ({ w with project := { w.project with selected := some file }, nextAttr := some n, nextText := some n,
                              metaText := some (file, w.project.fileList.idxOf file) }, none) := by
  have h1 : w.next file = (some n, .ok n) := by
    rw [Window.next, if_pos h0, hn, indexOf, if_pos hk]; rfl
  rw [Window.select, h1, indexOf, if_pos hk]

theorem select_bad {w : Window} {file : Str} {e : PyErr} (h0 : file ≠ []) (hn : nextName file = .error e) :
    w.select file = ({ w with project := { w.project with selected := some file } }, some e) := by
  have h1 : w.next file = (w.nextAttr, .error e) := by rw [Window.next, if_pos h0, hn]
  rw [Window.select, h1]

theorem click_file {w : Window} {i j : ℕ} {node : Str × List Str} {file : Str} (h1 : w.tree[i]? = some node) (h2 : node.2[j]? = some file) :
    w.click i (some j) = w.select file := by
  rw [Window.click, h1]
  dsimp only
  rw [h2]

/-- **C87**: after any number of actions, clicking on a SPICE file of the tree selects it, shows it with its first place in the
list of files of the project, and shows the file with the next number; the tree stays. -/
theorem C87_click (acts : List UserAct) (i j : ℕ) (node : Str × List Str) (instr exp : Str) (n : ℕ) (h1 : '_' ∉ instr)
    (h2 : ¬ "scan".toList <+: instr) (h3 : '_' ∉ exp) (hi : (Window.new.run acts).tree[i]? = some node)
    (hj : node.2[j]? = some (spiceName instr exp n)) :
    ∃ k w', (Window.new.run acts).click i (some j) = (w', none) ∧ w'.project.selected = some (spiceName instr exp n) ∧
      w'.metaText = some (spiceName instr exp n, k) ∧
      (Window.new.run acts).project.fileList[k]? = some (spiceName instr exp n) ∧
      (∀ k' < k, (Window.new.run acts).project.fileList[k']? ≠ some (spiceName instr exp n)) ∧
      w'.nextText = some (instr ++ "_exp".toList ++ exp ++ "_scan".toList ++ decStr (n + 1) ++ ".dat".toList) ∧
      w'.tree = (Window.new.run acts).tree ∧ w'.project.fileList = (Window.new.run acts).project.fileList := by
  have hk := C87_known acts node (List.mem_of_getElem? hi) _ (List.mem_of_getElem? hj)
  have hlt := List.idxOf_lt_length_of_mem hk
  refine ⟨(Window.new.run acts).project.fileList.idxOf (spiceName instr exp n), _,
    (click_file hi hj).trans (select_known (by simp [spiceName]) hk (nextName_spice n h1 h2 h3)), rfl, rfl, ?_, fun k' hk' he => ?_, rfl, rfl, rfl⟩
  · rw [List.getElem?_eq_getElem hlt, List.getElem_idxOf hlt]
  · obtain ⟨h, he⟩ := List.getElem?_eq_some_iff.1 he
    have hne := List.not_of_lt_findIdx (show k' < List.findIdx (· == spiceName instr exp n) _ from hk')
    rw [he] at hne
    exact absurd hne (by simp)

/-- A part of a file name and what follows it: a part `scan<number>.dat` is counted on, every other part that does not begin with
`scan` stays. -/
def Spec.NextPart (p q : Str) : Prop :=
  (¬ "scan".toList <+: p ∧ q = p) ∨
    ∃ ds, ds ≠ [] ∧ ds.all isDigit = true ∧ p = "scan".toList ++ ds ++ ".dat".toList ∧
      q = "scan".toList ++ decStr (digitsVal ds + 1) ++ ".dat".toList

theorem nextName_parts {ps qs : List Str} (h0 : ps ≠ []) (hu : ∀ p ∈ ps, '_' ∉ p) (h : List.Forall₂ NextPart ps qs) :
    nextName (joinStr "_".toList ps) = .ok (joinStr "_".toList qs) := by
  have hm : ps.mapM nextPart = .ok qs := by
    clear h0 hu
    induction h with
    | nil => rfl
    | @cons p q ps qs hp _ ih =>
      have : nextPart p = .ok q := by
        rcases hp with ⟨hn, rfl⟩ | ⟨ds, h0, hd, rfl, rfl⟩
        · rw [nextPart, if_neg]; rwa [List.isPrefixOf_iff_prefix]
        · exact nextPart_scan h0 hd
      rw [List.mapM_cons, this, ih]; rfl
  rw [nextName, show joinStr "_".toList ps = joinStr ['_'] ps from rfl, splitChar_join h0 hu, hm]; rfl

/-- **C87**: the same for a file of any other name, as long as its parts are numbered as the code expects; a file without a scan
number is shown as its own successor. -/
theorem C87_click_any (acts : List UserAct) (i j : ℕ) (node : Str × List Str) (ps qs : List Str) (h0 : joinStr "_".toList ps ≠ [])
    (hu : ∀ p ∈ ps, '_' ∉ p) (hnext : List.Forall₂ NextPart ps qs) (hi : (Window.new.run acts).tree[i]? = some node)
    (hj : node.2[j]? = some (joinStr "_".toList ps)) :
    ∃ k w', (Window.new.run acts).click i (some j) = (w', none) ∧ w'.project.selected = some (joinStr "_".toList ps) ∧
      w'.metaText = some (joinStr "_".toList ps, k) ∧
      (Window.new.run acts).project.fileList[k]? = some (joinStr "_".toList ps) ∧
      (∀ k' < k, (Window.new.run acts).project.fileList[k']? ≠ some (joinStr "_".toList ps)) ∧
      w'.nextText = some (joinStr "_".toList qs) ∧
      w'.tree = (Window.new.run acts).tree ∧ w'.project.fileList = (Window.new.run acts).project.fileList := by
  have hk := C87_known acts node (List.mem_of_getElem? hi) _ (List.mem_of_getElem? hj)
  have hlt := List.idxOf_lt_length_of_mem hk
  refine ⟨(Window.new.run acts).project.fileList.idxOf (joinStr "_".toList ps), _,
    (click_file hi hj).trans (select_known h0 hk (nextName_parts (by rintro rfl; exact h0 rfl) hu hnext)), rfl, rfl, ?_,
    fun k' hk' he => ?_, rfl, rfl, rfl⟩
  · rw [List.getElem?_eq_getElem hlt, List.getElem_idxOf hlt]
  · obtain ⟨h, he⟩ := List.getElem?_eq_some_iff.1 he
    have hne := List.not_of_lt_findIdx (show k' < List.findIdx (· == joinStr "_".toList ps) _ from hk')
    rw [he] at hne
    exact absurd hne (by simp)

/-! ## The code disagrees -/

/-- **C87**, the code disagrees: a folder that is empty, or whose (alphabetically) first file has `exp` in a name without
underscore, is loaded but not shown. -/
theorem C87_not_shown (w : Window) (ls : Str → Py (List Str)) (p : Str) (ps entries finished : List Str) (hl : ls p = .ok entries)
    (hf : finished.Perm entries)
    (hbad : entries = [] ∨ ∃ f ∈ entries, (∀ g ∈ entries, f ≤ g) ∧ "exp".toList <:+: f ∧ '_' ∉ f) :
    ∃ w', w.load ls (p :: ps) finished = (w', some .indexError) ∧ w'.tree = w.tree ∧
      w'.project.fileList.Perm (w.project.fileList ++ entries) := by
  obtain ⟨_, g2, g3, g4, _⟩ := C55_load w.project entries finished hf
  have hnode : treeNode (w.project.load entries finished).2 = .error .indexError := by
    rcases hbad with rfl | ⟨f, hm, hmin, he, hu⟩
    · rw [List.perm_nil.1 g3]; rfl
    · generalize (w.project.load entries finished).2 = names at g3 g4
      cases names with
      | nil => exact absurd (g3.mem_iff.2 hm) (by simp)
      | cons g l =>
        obtain rfl : g = f := by
          refine le_antisymm ?_ (hmin g (g3.mem_iff.1 List.mem_cons_self))
          rcases List.mem_cons.1 (g3.mem_iff.2 hm) with rfl | h
          · exact le_rfl
          · exact (List.pairwise_cons.1 g4).1 _ h
        rw [treeNode, List.head?_cons, need_some, py_bind_ok, if_pos ((isSubstr_iff _ _).2 he), splitChar_plain hu]; rfl
  refine ⟨{ w with project := (w.project.load entries finished).1 }, ?_, rfl, g2⟩
  rw [Window.load, hl]
  dsimp only
  rw [hnode]

theorem stripSet_sub {chars s : Str} {c : Char} (h : c ∈ stripSet chars s) : c ∈ s := by
  rw [stripSet, List.mem_reverse] at h
  have h := (List.dropWhile_suffix _).subset h
  rw [List.mem_reverse] at h
  exact (List.dropWhile_suffix _).subset h

theorem pyInt_digit {s : Str} {n : ℤ} (h : pyInt s = .ok n) : ∃ c ∈ s, isDigit c = true := by
  have key : ∀ t : Str, t ≠ [] ∧ t.all isDigit = true → ∃ c ∈ t, isDigit c = true := by
    rintro t ⟨h1, h2⟩
    obtain ⟨c, l, rfl⟩ := List.exists_cons_of_ne_nil h1
    exact ⟨c, List.mem_cons_self, List.all_eq_true.1 h2 c List.mem_cons_self⟩
  unfold pyInt at h
  split at h
  all_goals
    split at h
    · rename_i hc
      obtain ⟨c, h1, h2⟩ := key _ hc
      exact ⟨c, by simp [h1], h2⟩
    · exact absurd h (by simp)

theorem forall₂_left {α β : Type} {R : α → β → Prop} {l : List α} {r : List β} (h : List.Forall₂ R l r) {a : α} (ha : a ∈ l) :
    ∃ b, R a b := by
  induction h with
  | nil => exact absurd ha (by simp)
  | cons h1 _ ih =>
    rcases List.mem_cons.1 ha with rfl | ha
    · exact ⟨_, h1⟩
    · exact ih ha

theorem nextName_bad {file part : Str} (hp : part ∈ splitChar '_' file) (hscan : "scan".toList <+: part)
    (hd : ∀ c ∈ part, isDigit c = false) : ∃ e, nextName file = .error e := by
  cases h : nextName file with
  | error e => exact ⟨e, rfl⟩
  | ok n =>
    rw [nextName] at h
    obtain ⟨l, h, _⟩ := map_eq_ok.1 h
    obtain ⟨r, hr⟩ := forall₂_left (mapM_ok_inv h) hp
    rw [nextPart, if_pos (List.isPrefixOf_iff_prefix.2 hscan)] at hr
    obtain ⟨m, hm, _⟩ := map_eq_ok.1 hr
    obtain ⟨c, hc, hc'⟩ := pyInt_digit hm
    rw [hd c (stripSet_sub (stripSet_sub hc))] at hc'
    exact absurd hc' (by decide)

/-- **C87**, the code disagrees: clicking on a file with a part `scan...` that has no number selects the file, but the window goes
on showing the previous one. -/
theorem C87_stale (acts : List UserAct) (i j : ℕ) (node : Str × List Str) (file : Str)
    (hi : (Window.new.run acts).tree[i]? = some node) (hj : node.2[j]? = some file) (part : Str) (hp : part ∈ splitChar '_' file)
    (hscan : "scan".toList <+: part) (hd : ∀ c ∈ part, isDigit c = false) :
    ∃ w' e, (Window.new.run acts).click i (some j) = (w', some e) ∧ w'.project.selected = some file ∧
      w'.metaText = (Window.new.run acts).metaText ∧ w'.nextText = (Window.new.run acts).nextText := by
  obtain ⟨e, he⟩ := nextName_bad hp hscan hd
  refine ⟨_, e, (click_file hi hj).trans (select_bad ?_ he), rfl, rfl, rfl⟩
  rintro rfl
  obtain rfl := List.mem_singleton.1 hp
  exact absurd hscan (by decide)

/-- **C87**: clicking on the title of a node, or where there is nothing, changes nothing and raises nothing, and so the history may
be read without these clicks. -/
theorem C87_no_file (acts after : List UserAct) (i : ℕ) (j : Option ℕ)
    (hj : ∀ k, j = some k → ∀ node, (Window.new.run acts).tree[i]? = some node → node.2.length ≤ k) :
    ((Window.new.run acts).act (.click i j)).2 = none ∧
      Window.new.run (acts ++ .click i j :: after) = Window.new.run (acts ++ after) := by
  have key : (Window.new.run acts).act (.click i j) = (Window.new.run acts, none) := by
    rw [Window.act]
    unfold Window.click
    cases j with
    | none => rfl
    | some k =>
      dsimp only
      split
      · rfl
      · rename_i node hn
        rw [List.getElem?_eq_none (hj k rfl node hn)]
  refine ⟨by rw [key], ?_⟩
  rw [run_append, run_append]
  show ((Window.new.run acts).act (.click i j)).1.run after = _
  rw [key]

/-- **C87**, the code disagrees: of several paths only the first is loaded, and without any the load fails. -/
theorem C87_first_only (w : Window) (ls : Str → Py (List Str)) (p : Str) (ps finished : List Str) :
    w.load ls (p :: ps) finished = w.load ls [p] finished ∧ w.load ls [] finished = (w, some .indexError) := ⟨rfl, rfl⟩

/-! ## Concrete cases -/

namespace Demo

/-- Two folders, one of them with other files. -/
def demoFolders : Str → Py (List Str) := fun p =>
  if p = "/data/exp424".toList then .ok ["CG4C_exp0424_scan0042.dat".toList, "CG4C_exp0424_scan0041.dat".toList]
  else if p = "/data/notes".toList then .ok ["scan_notes.txt".toList, "list.txt".toList]
  else if p = "/data/empty".toList then .ok []
  else .error .fileNotFound

/-- The user loads both folders. -/
def demoActs : List UserAct :=
  [.load demoFolders ["/data/exp424".toList] ["CG4C_exp0424_scan0042.dat".toList, "CG4C_exp0424_scan0041.dat".toList],
   .click 0 none, .load demoFolders ["/data/nowhere".toList] [],
   .load demoFolders ["/data/notes".toList, "/data/exp424".toList] ["scan_notes.txt".toList, "list.txt".toList]]

theorem demo_tree : (Window.new.run demoActs).tree =
    [("exp0424".toList, ["CG4C_exp0424_scan0041.dat".toList, "CG4C_exp0424_scan0042.dat".toList]),
     ("Folder".toList, ["list.txt".toList, "scan_notes.txt".toList])] := by decide +kernel

theorem nowhere_fails : demoFolders "/data/nowhere".toList = .error .fileNotFound := by decide

/-- The theorem about the tree applies. -/
example : List.Forall₂ NodeFor [["CG4C_exp0424_scan0042.dat".toList, "CG4C_exp0424_scan0041.dat".toList],
    ["scan_notes.txt".toList, "list.txt".toList]] (Window.new.run demoActs).tree := by
  refine C87_tree_partial demoActs ?_ ?_
  · intro a ha
    simp only [demoActs, List.mem_cons, List.not_mem_nil, or_false] at ha
    rcases ha with rfl | rfl | rfl | rfl
    · intro entries h; rw [← Except.ok.inj h]
    · trivial
    · intro entries h
      rw [nowhere_fails] at h
      exact absurd h (by simp)
    · intro entries h; rw [← Except.ok.inj h]
  · intro a ha entries he
    simp only [demoActs, List.mem_cons, List.not_mem_nil, or_false] at ha
    rcases ha with rfl | rfl | rfl | rfl
    · obtain rfl := Option.some.inj he; exact ⟨by decide, by decide +kernel⟩
    · exact absurd he (by simp [loadedBy])
    · rw [loadedBy, nowhere_fails] at he
      exact absurd he (by simp)
    · obtain rfl := Option.some.inj he
      refine ⟨by decide, fun f hf hx => absurd ((isSubstr_iff _ _).2 hx) ?_⟩
      simp only [List.mem_cons, List.not_mem_nil, or_false] at hf
      rcases hf with rfl | rfl <;> decide

/-- Clicking on the second file shows it, at the first place of the list, since it finished first. -/
example : ∃ w', (Window.new.run demoActs).click 0 (some 1) = (w', none) ∧
    w'.metaText = some ("CG4C_exp0424_scan0042.dat".toList, 0) ∧ w'.nextText = some "CG4C_exp0424_scan43.dat".toList := by
  obtain ⟨k, w', h1, _, h3, h4, h5, h6, _⟩ := C87_click demoActs 0 1 _ "CG4C".toList "0424".toList 42 (by decide) (by decide) (by decide)
    (by rw [demo_tree]; rfl) (by decide +kernel)
  refine ⟨w', h1, ?_, h6.trans (by decide +kernel)⟩
  rw [h3]
  have hk : k = 0 := by
    by_contra hk
    exact h5 0 (Nat.pos_of_ne_zero hk) (by decide +kernel)
  rw [hk, show spiceName "CG4C".toList "0424".toList 42 = "CG4C_exp0424_scan0042.dat".toList by decide +kernel]

/-- Clicking on a file that is no scan shows it, and the same name as the next one. -/
example : ∃ k w', (Window.new.run demoActs).click 1 (some 0) = (w', none) ∧ w'.metaText = some ("list.txt".toList, k) ∧
    w'.nextText = some "list.txt".toList := by
  obtain ⟨k, w', h1, _, h3, _, _, h6, _⟩ := C87_click_any demoActs 1 0 _ ["list.txt".toList] ["list.txt".toList] (by decide) (by simp)
    (.cons (.inl ⟨by decide, rfl⟩) .nil) (by rw [demo_tree]; rfl) (by decide)
  exact ⟨k, w', h1, h3, h6⟩

/-- Clicking on the notes changes the selection only. -/
example : ∃ w' e, (Window.new.run demoActs).click 1 (some 1) = (w', some e) ∧ w'.project.selected = some "scan_notes.txt".toList ∧
    w'.metaText = none := by
  obtain ⟨w', e, h1, h2, h3, _⟩ := C87_stale demoActs 1 1 _ "scan_notes.txt".toList (by rw [demo_tree]; rfl) (by decide)
    "scan".toList (by decide) (by decide) (by decide)
  exact ⟨w', e, h1, h2, h3.trans (by decide +kernel)⟩

/-- The empty folder is not shown. -/
example : ∃ w', Window.new.load demoFolders ["/data/empty".toList] [] = (w', some .indexError) ∧ w'.tree = [] := by
  obtain ⟨w', h1, h2, _⟩ := C87_not_shown Window.new demoFolders "/data/empty".toList [] [] [] (by decide) (.refl _) (.inl rfl)
  exact ⟨w', h1, h2⟩

/-- Clicks on the title of a folder, and below its last file. -/
example : Window.new.run (demoActs ++ [.click 0 none, .click 1 (some 2)]) = Window.new.run demoActs := by
  have h1 := (C87_no_file demoActs [.click 1 (some 2)] 0 none (fun k h => absurd h (by simp))).2
  have h2 := (C87_no_file demoActs [] 1 (some 2) (fun k h node hn => by
    obtain rfl := Option.some.inj h
    rw [demo_tree] at hn
    obtain rfl := Option.some.inj hn
    simp)).2
  rw [List.append_nil] at h2
  exact h1.trans h2

end Demo

end Tavi
