import Verif.Props.PlotLink

/-!
# The default plot of a written entry: where nothing is asked for, an axis that is a group, and concrete cases (C80)
-/

namespace Tavi

open Spec

/-- **C80**: an entry whose group `data` says nothing about the plot cannot be written (`KeyError`). -/
theorem C80_no_signal (d : Dict) (hd : Entry d) (name : Str) (f : NxFile) (a : List (Str × Leaf)) (ch : H5s)
    (hf : f.tree = .node none a ch) (hnew : ch.get? name = none) (hl : ∀ l ∈ f.links, l.entry ≠ name)
    (z : Option Leaf × (Str → Option Leaf)) (hdata : view d ["data".toList] = some z)
    (hno : z.2 "signal".toList = none ∨ z.2 "axes".toList = none) (pre : Str) : toNexusIn pre d name f = .error .keyError := by
  have ht := entry_tidy hd
  have hdp : ∀ k ∈ [kData], Plain k := by simp [plain_data]
  obtain ⟨dg, hdg⟩ := view_at_exists ht hdp hdata
  have hdgv : dg.view [] = some z := by
    rw [← hdata, ← view_nodeOf hd]; exact (view_at hdp hdg []).symm
  have hattr : ∀ k, lookupKey k dg.attrs = z.2 k := by
    intro k
    cases dg with
    | node v b c =>
      rw [H5.view] at hdgv
      rw [← Option.some.inj hdgv]; rfl
  have hwrite : writeEntry d name f = .ok ⟨.node none a (ch.set name (nodeOf d)), f.links⟩ := by
    unfold writeEntry
    rw [hf, toNexus_new ht hnew, py_bind_ok]
    split
    · rw [overwriteLinks_none name _ f hl, py_bind_ok]
    · rw [py_bind_ok]
  have he : (NxFile.mk (.node none a (ch.set name (nodeOf d))) f.links).entry name = some (nodeOf d) := by
    show (ch.set name (nodeOf d)).get? name = _
    rw [H5s.get?_set, if_pos rfl]
  rw [toNexusIn, hwrite, py_bind_ok]
  unfold makeLinks
  rw [he]
  dsimp only
  rw [at_data hdg]
  dsimp only
  rw [hattr, hattr]
  rcases hno with h | h
  · rw [h]; rfl
  · cases h' : z.2 "signal".toList with
    | none => rfl
    | some y => rw [need_some, py_bind_ok, h]; rfl

/-- An entry without the group `data` is written without links. -/
theorem no_data_in (pre : Str) (d : Dict) (hd : Entry d) (name : Str) (hn : Plain name) (f : NxFile) (a : List (Str × Leaf)) (ch : H5s)
    (hf : f.tree = .node none a ch) (hnew : ch.get? name = none) (hl : ∀ l ∈ f.links, l.entry ≠ name)
    (hdata : view d ["data".toList] = none) :
    ∃ f' r, toNexusIn pre d name f = .ok f' ∧ NewEntry name f f' ∧ f'.links = f.links ∧ fromNexusFile f' none = .ok r ∧
      ∀ p, view r (name :: p) = view d p := by
  have ht := entry_tidy hd
  have hdp : ∀ k ∈ [kData], Plain k := by simp [plain_data]
  have hwrite : writeEntry d name f = .ok ⟨.node none a (ch.set name (nodeOf d)), f.links⟩ := by
    unfold writeEntry
    rw [hf, toNexus_new ht hnew, py_bind_ok]
    split
    · rw [overwriteLinks_none name _ f hl, py_bind_ok]
    · rw [py_bind_ok]
  have hg0 : (ch.set name (nodeOf d)).get? name = some (nodeOf d) := by rw [H5s.get?_set, if_pos rfl]
  have he : (NxFile.mk (.node none a (ch.set name (nodeOf d))) f.links).entry name = some (nodeOf d) := hg0
  have hno : (nodeOf d).children.get? kData = none := by
    have h1 : (nodeOf d).at [kData] = none := at_none_of_view hdp (by rw [view_nodeOf hd]; exact hdata)
    rw [tidy_node ht] at h1 ⊢
    rw [H5.at] at h1
    cases hc : (kids d).get? kData with
    | none => exact hc
    | some n => rw [hc, Option.bind_some, H5.at] at h1; exact absurd h1 (by simp)
  set F : NxFile := ⟨.node none a (ch.set name (nodeOf d)), f.links⟩ with hF
  obtain ⟨ch', hr1, hr2⟩ := resolved_entry F (a := a) (ch := ch.set name (nodeOf d)) rfl
  refine ⟨F, readMembers ch', ?_, ⟨a, ch, _, [], hf, by rw [List.append_nil], by simp⟩, rfl, by rw [fromNexusFile, hr1]; rfl, fun p => ?_⟩
  · rw [toNexusIn, hwrite, py_bind_ok]
    unfold makeLinks
    rw [he]
    dsimp only
    rw [hno]
  · rw [view, if_neg (not_or.2 hn), get?_readMembers, hr2 name, hg0, Option.map_some, Option.map_some]
    dsimp only
    rw [view_readNode, linkInto_other F name f.links hl, view_nodeOf hd]

/-- **C80**: an entry without the group `data` is written without links. -/
theorem C80_no_data (d : Dict) (hd : Entry d) (name : Str) (hn : Plain name) (f : NxFile) (a : List (Str × Leaf)) (ch : H5s)
    (hf : f.tree = .node none a ch) (hnew : ch.get? name = none) (hl : ∀ l ∈ f.links, l.entry ≠ name)
    (hdata : view d ["data".toList] = none) :
    ∃ f' r, toNexusFile d name f = .ok f' ∧ f'.links = f.links ∧ fromNexusFile f' none = .ok r ∧
      ∀ p, view r (name :: p) = view d p := by
  obtain ⟨f', r, h1, _, h2⟩ := no_data_in [] d hd name hn f a ch hf hnew hl hdata
  exact ⟨f', r, h1, h2⟩

/-! ## Concrete cases -/

mutual
/-- All paths of a tree. -/
def pathsV : Val → List (List Str)
  | .leaf _ => []
  | .dict d => [] :: pathsD d
/-- All paths of a tree. -/
def pathsD : Dict → List (List Str)
  | .nil => []
  | .cons k v rest => (pathsV v).map (k :: ·) ++ pathsD rest
end

theorem get?_paths {d e : Dict} {k : Str} (h : d.get? k = some (.dict e)) {p : List Str} (hp : p ∈ [] :: pathsD e) :
    k :: p ∈ pathsD d := by
  induction d using Dict.rec (motive_1 := fun _ => True) with
  | leaf => trivial
  | dict => trivial
  | nil => exact absurd h (by simp [Dict.get?])
  | cons k' v rest _ ih =>
    rw [Dict.get?] at h
    rw [pathsD]
    split at h
    · rename_i hk
      obtain rfl := Option.some.inj h
      rw [pathsV, hk]
      exact List.mem_append_left _ (List.mem_map_of_mem hp)
    · exact List.mem_append_right _ (ih h)

theorem walk_paths {d e : Dict} {p : List Str} (h : walk d p = some e) : p ∈ [] :: pathsD d := by
  induction p generalizing d with
  | nil => simp
  | cons k p ih =>
    rw [walk] at h
    split at h
    · rename_i f hf
      exact List.mem_cons_of_mem _ (get?_paths hf (ih h))
    · exact absurd h (by simp)

/-- Looking through all paths. -/
theorem onlyAt_of {d : Dict} {val : Str} {q : List Str} (h1 : (walk d (q ++ [val])).isSome)
    (h2 : (q ++ [val]).all fun k => decide (k ≠ "attrs".toList ∧ k ≠ "dataset".toList ∧ k ≠ "SPICElogs".toList ∧ k ≠ "data".toList))
    (h3 : ([] :: pathsD d).all fun p => decide (p.getLast? = some val →
      p = q ++ [val] ∨ "SPICElogs".toList ∈ p ∨ "data".toList ∈ p)) : OnlyAt d val q := by
  refine ⟨Option.isSome_iff_exists.1 h1, fun k hk => ?_, fun q' e hs hw => ?_⟩
  · have := of_decide_eq_true (List.all_eq_true.1 h2 k hk)
    exact ⟨⟨this.1, this.2.1⟩, this.2.2⟩
  · have := of_decide_eq_true (List.all_eq_true.1 h3 _ (walk_paths hw)) (by simp)
    rcases this with h | h | h
    · exact List.append_cancel_right h
    · exact absurd rfl (hs _ h).2.1
    · exact absurd rfl (hs _ h).2.2

namespace Demo

/-- An entry whose plot shows the detector against the motor `s1`. -/
def plotted : Dict :=
  .cons "attrs".toList (.dict (.cons "dataset_name".toList (.leaf (.str "IPTS1_CG4C_exp0424".toList)) .nil)) <|
  .cons "data".toList (.dict (.cons "attrs".toList (.dict (.cons "signal".toList (.leaf (.str "detector".toList))
    (.cons "axes".toList (.leaf (.str "s1".toList)) .nil))) .nil)) <|
  .cons "instrument".toList (.dict (.cons "detector".toList (.dict <|
    .cons "data".toList (.dict (.cons "dataset".toList (.leaf (.fin [5, 7])) .nil)) .nil) .nil)) <|
  .cons "sample".toList (.dict (.cons "s1".toList (.dict (.cons "dataset".toList (.leaf (.fin [10, 20])) .nil)) .nil)) .nil

theorem plotted_entry : Entry plotted := by
  refine .attrs (.cons rfl .nil) rfl (.group (plain_of _ (by decide)) (.attrs (.cons rfl (.cons rfl .nil)) rfl .nil) rfl
    (.group (plain_of _ (by decide)) (.group (plain_of _ (by decide)) (.data (plain_of _ (by decide)) (.bare ?_) rfl .nil) rfl .nil) rfl
    (.group (plain_of _ (by decide)) (.data (plain_of _ (by decide)) (.bare ?_) rfl .nil) rfl .nil)))
  · exact ⟨by decide, fun h => absurd h (by decide)⟩
  · exact ⟨by decide, fun h => absurd h (by decide)⟩

theorem plotted_x : AxisOf plotted "s1".toList (some ["sample".toList, "s1".toList]) :=
  .found (q := ["sample".toList]) (onlyAt_of (by decide) (by decide) (by decide)) rfl

theorem plotted_y : AxisOf plotted "detector".toList (some ["instrument".toList, "detector".toList, "data".toList]) :=
  .found (q := ["instrument".toList]) (onlyAt_of (by decide) (by decide) (by decide)) rfl

/-- The written file shows 5 and 7 against 10 and 20. -/
example : ∃ f' r B C, toNexusFile plotted "scan0034".toList NxFile.new = .ok f' ∧ fromNexusFile f' none = .ok r ∧
    view r ["scan0034".toList, "data".toList, "detector".toList] = some (some (.fin [5, 7]), B) ∧
    view r ["scan0034".toList, "data".toList, "s1".toList] = some (some (.fin [10, 20]), C) := by
  obtain ⟨f', r, r₀, h1, h2, _, _, h3, _⟩ := C80_default_plot plotted plotted_entry "scan0034".toList (plain_of _ (by decide))
    NxFile.new [] .nil rfl rfl (by simp [NxFile.new]) "s1".toList "detector".toList _ _ _ rfl rfl rfl (by decide) plotted_x plotted_y
    (by
      intro k z hk h
      rcases hk with rfl | rfl
      · exact absurd h (by rw [show view plotted ["data".toList, "s1".toList] = none from rfl]; simp)
      · exact absurd h (by rw [show view plotted ["data".toList, "detector".toList] = none from rfl]; simp))
  have hy := (h3 _ _ _ (.inr ⟨rfl, rfl⟩) rfl).1.1
  have hx := (h3 _ _ _ (.inl ⟨rfl, rfl⟩) rfl).1.1
  have ey : view plotted ["instrument".toList, "detector".toList, "data".toList] = some (some (.fin [5, 7]), fun _ => none) := rfl
  have ex : view plotted ["sample".toList, "s1".toList] = some (some (.fin [10, 20]), fun _ => none) := rfl
  rw [ey] at hy
  rw [ex] at hx
  cases hc : view r ["scan0034".toList, "data".toList, "detector".toList] with
  | none => rw [hc] at hy; exact absurd hy (by simp)
  | some z =>
    cases hc' : view r ["scan0034".toList, "data".toList, "s1".toList] with
    | none => rw [hc'] at hx; exact absurd hx (by simp)
    | some w =>
      rw [hc] at hy
      rw [hc'] at hx
      obtain ⟨z1, z2⟩ := z
      obtain ⟨w1, w2⟩ := w
      rw [Option.map_some, Option.map_some] at hy hx
      obtain rfl := Option.some.inj hy
      obtain rfl := Option.some.inj hx
      exact ⟨f', r, z2, w2, h1, h2, hc, hc'⟩

/-- An entry whose plot is against a column called `sample`. -/
def bySample : Dict :=
  .cons "data".toList (.dict (.cons "attrs".toList (.dict (.cons "signal".toList (.leaf (.str "detector".toList))
    (.cons "axes".toList (.leaf (.str "sample".toList)) .nil))) .nil)) <|
  .cons "sample".toList (.dict (.cons "name".toList (.dict (.cons "dataset".toList (.leaf (.str "Cu".toList)) .nil)) .nil)) .nil

theorem bySample_entry : Entry bySample := by
  refine .group (plain_of _ (by decide)) (.attrs (.cons rfl (.cons rfl .nil)) rfl .nil) rfl
    (.group (plain_of _ (by decide)) (.data (plain_of _ (by decide)) (.bare ?_) rfl .nil) rfl .nil)
  exact ⟨by decide, by decide⟩

/-- The file with that entry. -/
def bySampleFile : NxFile :=
  ⟨.node none [] (.cons "scan0001".toList (.node none [] (.cons "data".toList
      (.node none [("signal".toList, .str "detector".toList), ("axes".toList, .str "sample".toList)] .nil)
      (.cons "sample".toList (.node none [("target".toList, .str "/scan0001/sample".toList)]
        (.cons "name".toList (.node (some (.str "Cu".toList)) [] .nil) .nil)) .nil))) .nil),
    [⟨"scan0001".toList, "sample".toList, ["sample".toList]⟩]⟩

end Demo

open Demo in
/-- **C80**, refuted: a name that stands for a group. The link then leads to the group instead of the numbers of the column,
and the same entry cannot be written again (`ValueError`). -/
theorem C80_group_axis :
    toNexusFile bySample "scan0001".toList NxFile.new = .ok bySampleFile ∧
      bySampleFile.target ⟨"scan0001".toList, "sample".toList, ["sample".toList]⟩ ≠ none ∧
      (∀ n, bySampleFile.target ⟨"scan0001".toList, "sample".toList, ["sample".toList]⟩ = some n → n.isDataset = false) ∧
      toNexusFile bySample "scan0001".toList bySampleFile = .error .valueError := by
  refine ⟨?_, ?_, ?_, ?_⟩
  · have hw : writeEntry bySample "scan0001".toList NxFile.new =
        .ok ⟨.node none [] (H5s.nil.set "scan0001".toList (nodeOf bySample)), []⟩ := by
      unfold writeEntry
      rw [show NxFile.new.tree = .node none [] .nil from rfl, toNexus_new (entry_tidy bySample_entry) rfl, py_bind_ok]
      rfl
    rw [toNexusFile, toNexusIn, hw, py_bind_ok]
    rfl
  · rw [show bySampleFile.target ⟨"scan0001".toList, "sample".toList, ["sample".toList]⟩ = some _ from rfl]; simp
  · intro n h
    rw [show bySampleFile.target ⟨"scan0001".toList, "sample".toList, ["sample".toList]⟩ = some _ from rfl] at h
    obtain rfl := Option.some.inj h
    rfl
  · have ht : toNexus bySample "scan0001".toList bySampleFile.tree = .ok bySampleFile.tree := by
      rw [toNexus, bySampleFile]
      rfl
    unfold toNexusFile toNexusIn writeEntry
    rw [ht, py_bind_ok]
    rfl

end Tavi
