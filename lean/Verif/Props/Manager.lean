import Verif.Model.Manager
import Verif.Lemmas.Assoc
import Verif.Props.Filter

/-!
# Projects: loading, selecting, combining (C90)
-/

namespace Tavi

namespace Manager

open Spec

/-! ## What the statements refer to -/

/-- No facility is named, or the one there is a loader for. -/
def _root_.Tavi.Spec.CanLoad (facility : Option Str) : Prop := facility = none ∨ facility = some [] ∨ facility = some "ORNL".toList

/-- What an operation loads into a project. -/
def _root_.Tavi.Spec.loads {α : Type} (p : ℕ) : Op α → Option α
  | .load q _ (.ok s) => if q = p then some s else none
  | _ => none

/-- The scans a project should have: those of the last load that succeeded. -/
def _root_.Tavi.Spec.lastLoaded {α : Type} (p : ℕ) (ops : List (Op α)) : Option α := (ops.filterMap (loads p)).getLast?

/-! ## Loading -/

theorem maxKey_spec (f : Str → ℕ) (l : List Str) (a : Str) (h : maxKey f l = some a) : a ∈ l ∧ ∀ b ∈ l, f b ≤ f a := by
  induction l generalizing a with
  | nil => exact absurd h (by simp [maxKey])
  | cons c l ih =>
    unfold maxKey at h
    split at h
    · rename_i hn
      obtain rfl := Option.some.inj h
      refine ⟨List.mem_cons_self, fun b hb => ?_⟩
      rcases List.mem_cons.1 hb with rfl | hb
      · exact le_rfl
      · cases l with
        | nil => exact absurd hb (by simp)
        | cons d l =>
          unfold maxKey at hn
          split at hn
          · exact absurd hn (by simp)
          · split at hn <;> exact absurd hn (by simp)
    · rename_i d hd
      obtain ⟨h1, h2⟩ := ih d hd
      split at h
      · rename_i hlt
        obtain rfl := Option.some.inj h
        refine ⟨List.mem_cons_of_mem _ h1, fun b hb => ?_⟩
        rcases List.mem_cons.1 hb with rfl | hb
        · exact hlt.le
        · exact h2 b hb
      · rename_i hlt
        obtain rfl := Option.some.inj h
        refine ⟨List.mem_cons_self, fun b hb => ?_⟩
        rcases List.mem_cons.1 hb with rfl | hb
        · exact le_rfl
        · exact (h2 b hb).trans (not_lt.1 hlt)

theorem rank_ok : rank = .ok "ORNL".toList := by decide

/-- **C90**: the facility chosen is one of those supported, and none has a higher score. -/
theorem _root_.Tavi.C90_rank (a : Str) (h : rank = .ok a) : a ∈ supported ∧ ∀ b ∈ supported, score b ≤ score a :=
  maxKey_spec score supported a (need_eq_ok.1 h)

theorem load_loadable {α : Type} {facility : Option Str} (h : CanLoad facility) (r : Py α) : Manager.load facility r = r.map some := by
  rcases h with rfl | rfl | rfl
  · rw [Manager.load, Option.getD, if_pos rfl, rank_ok, py_bind_ok, if_pos rfl]
  · rw [Manager.load, Option.getD, if_pos rfl, rank_ok, py_bind_ok, if_pos rfl]
  · rw [Manager.load, if_neg (by decide)]
    rfl

theorem run_snoc {α : Type} (w : World α) (ops : List (Op α)) (op : Op α) :
    w.run (ops ++ [op]) = match (w.run ops).step op with
      | .ok w' => w'
      | .error _ => w.run ops := by
  rw [World.run, List.foldl_append]; rfl

theorem at_raw {α : Type} (w : World α) (p q : ℕ) (f : Proj α → Proj α) : (w.at p f).projects q = if q = p then f (w.projects q) else w.projects q := rfl

/-- **C90** (partial): after any history a project has the scans of its last load that succeeded. Missing: facilities without a
loader, see `C90_unsupported`. -/
theorem _root_.Tavi.C90_load_partial {α : Type} (ops : List (Op α)) (p : ℕ)
    (h : ∀ facility r, Op.load p facility r ∈ ops → CanLoad facility) :
    (((World.new α).run ops).projects p).raw = match lastLoaded p ops with
      | none => .unset
      | some s => .scans s := by
  induction ops using List.reverseRecOn with
  | nil => rfl
  | append_singleton ops op ih =>
    have ih := ih fun f r hm => h f r (List.mem_append_left _ hm)
    have hsnoc : lastLoaded p (ops ++ [op]) = (loads p op).or (lastLoaded p ops) := by
      rw [lastLoaded, List.filterMap_append]
      cases hl : loads p op with
      | none => rw [List.filterMap_cons_none hl, List.filterMap_nil, List.append_nil]; rfl
      | some v => rw [List.filterMap_cons_some hl, List.filterMap_nil, List.getLast?_concat]; rfl
    rw [hsnoc, run_snoc]
    generalize (World.new α).run ops = w at ih
    cases op with
    | setScans q scans =>
      show ((w.at q _).projects p).raw = _
      rw [at_raw]
      split <;> exact ih
    | select q name conds logic category tol =>
      show ((match w.select q name conds logic category tol with | .ok w' => w' | .error _ => w : World α).projects p).raw = _
      split
      · rename_i w' hw
        rw [World.select] at hw
        obtain ⟨scans, _, hw⟩ := py_bind_eq_ok.1 hw
        obtain ⟨r, _, rfl⟩ := map_eq_ok.1 hw
        split
        · rw [at_raw]; split <;> exact ih
        · exact ih
      · exact ih
    | load q facility r =>
      show ((match w.load q facility r with | .ok w' => w' | .error _ => w : World α).projects p).raw = _
      by_cases hq : q = p
      · subst hq
        rw [World.load, load_loadable (h facility r (by simp))]
        cases r with
        | error e => exact ih
        | ok s =>
          show ((w.at q _).projects q).raw = _
          rw [at_raw, if_pos rfl]
          have : loads q (.load q facility (.ok s)) = some s := if_pos rfl
          rw [this]; rfl
      · have hl : loads p (.load q facility r) = none := by
          cases r with
          | error e => rfl
          | ok s => exact if_neg hq
        rw [hl]
        split
        · rename_i w' hw
          obtain ⟨r', _, rfl⟩ := map_eq_ok.1 hw
          rw [at_raw, if_neg (Ne.symm hq)]
          exact ih
        · exact ih

/-- **C90**, the code disagrees: a facility that is supported but has no loader, or is unknown, makes the project lose its scans
without any error. -/
theorem _root_.Tavi.C90_unsupported {α : Type} (w : World α) (p : ℕ) (facility : Str) (r : Py α) (h1 : facility ≠ [])
    (h2 : facility ≠ "ORNL".toList) : ∃ w', w.step (.load p (some facility) r) = .ok w' ∧ (w'.projects p).raw = .none := by
  refine ⟨_, map_eq_ok.2 ⟨none, ?_, rfl⟩, ?_⟩
  · show (if facility = [] then rank else .ok facility) >>= _ = _
    rw [if_neg h1, py_bind_ok, if_neg h2]
  · rw [at_raw, if_pos rfl]

/-! ## Selecting -/

theorem scanList_none {α : Type} (ops : List (Op α)) (p : ℕ) (h : ∀ scans, Op.setScans p scans ∉ ops) :
    (((World.new α).run ops).projects p).scanList = none := by
  induction ops using List.reverseRecOn with
  | nil => rfl
  | append_singleton ops op ih =>
    have ih := ih fun s hm => h s (List.mem_append_left _ hm)
    rw [run_snoc]
    generalize (World.new α).run ops = w at ih
    cases op with
    | setScans q scans =>
      show ((w.at q _).projects p).scanList = _
      rw [at_raw, if_neg (fun hq : p = q => h scans (by simp [hq]))]
      exact ih
    | select q name conds logic category tol =>
      show ((match w.select q name conds logic category tol with | .ok w' => w' | .error _ => w : World α).projects p).scanList = _
      split
      · rename_i w' hw
        rw [World.select] at hw
        obtain ⟨scans, _, hw⟩ := py_bind_eq_ok.1 hw
        obtain ⟨r, _, rfl⟩ := map_eq_ok.1 hw
        split
        · rw [at_raw]; split <;> exact ih
        · exact ih
      · exact ih
    | load q facility r =>
      show ((match w.load q facility r with | .ok w' => w' | .error _ => w : World α).projects p).scanList = _
      split
      · rename_i w' hw
        obtain ⟨r', _, rfl⟩ := map_eq_ok.1 hw
        rw [at_raw]
        split <;> exact ih
      · exact ih

/-- **C90**, the code disagrees: scans cannot be selected after they have been loaded; whatever has been loaded, selecting raises
`AttributeError`, unless the program sets an attribute that the classes do not have. -/
theorem _root_.Tavi.C90_select_fails {α : Type} (ops : List (Op α)) (p : ℕ) (h : ∀ scans, Op.setScans p scans ∉ ops) (name : Str)
    (conds : List FCond) (logic : FilterLogic) (category : Str) (tol : ℚ) :
    ((World.new α).run ops).step (.select p name conds logic category tol) = .error .attributeError := by
  show World.select _ _ _ _ _ _ _ = _
  rw [World.select, scanList_none ops p h]
  rfl

/-- **C90** (partial): with that attribute set, the selection is that of the filter (C53): the scans that meet some or all of the
conditions, in alphabetical order; it is kept for processing or shown under its name, and nothing else changes. -/
theorem _root_.Tavi.C90_select_partial {α : Type} (w w' : World α) (p : ℕ) (name : Str) (conds : List FCond) (logic : FilterLogic)
    (category : Str) (tol : ℚ) (scans : List (Str × FScan)) (hs : (w.projects p).scanList = some scans)
    (hkeys : (scans.map Prod.fst).Nodup) (hle : ∀ c ∈ conds, c.op ≠ .lessEqual) (hne : conds ≠ [])
    (hlog : logic = .or ∨ logic = .and) (h : w.step (.select p name conds logic category tol) = .ok w') :
    ∃ l, l.Pairwise (· < ·) ∧
      (logic = .or → ∀ n, n ∈ l ↔ ∃ scan, (n, scan) ∈ scans ∧ ∃ c ∈ conds, Spec.Meets tol c scan) ∧
      (logic = .and → ∀ n, n ∈ l ↔ ∃ scan, (n, scan) ∈ scans ∧ ∀ c ∈ conds, Spec.Meets tol c scan) ∧
      (category = "model".toList → (w'.projects p).process = some l ∧ w'.shownIn p = w.shownIn p) ∧
      (category ≠ "model".toList → lookupKey name (w'.shownIn p) = some (some l) ∧
        (∀ n, n ≠ name → lookupKey n (w'.shownIn p) = lookupKey n (w.shownIn p)) ∧ w'.projects p = w.projects p) ∧
      (w'.projects p).raw = (w.projects p).raw ∧ (w'.projects p).scanList = (w.projects p).scanList ∧
      ∀ q, q ≠ p → w'.projects q = w.projects q := by
  change World.select _ _ _ _ _ _ _ = _ at h
  rw [World.select, hs, need_some, py_bind_ok] at h
  obtain ⟨⟨f, r⟩, hr, rfl⟩ := map_eq_ok.1 h
  obtain ⟨l, rfl⟩ : ∃ l, r = some l := by
    rw [Filter.filterData] at hr
    change (if conds = [] then _ else _) = _ at hr
    rw [if_neg hne] at hr
    obtain ⟨out, _, hr⟩ := py_bind_eq_ok.1 hr
    rcases hlog with rfl | rfl
    · exact ⟨_, (Prod.mk.inj (Except.ok.inj hr)).2.symm⟩
    · obtain ⟨l, _, hl⟩ := map_eq_ok.1 hr
      exact ⟨l, (Prod.mk.inj hl).2.symm⟩
  obtain ⟨h1, h2, h3⟩ := C53_filter_partial scans conds logic tol hkeys hle [some l] f (.step _ _ _ _ _ hr (.nil _)) l (by simp)
  refine ⟨l, h1, h2, h3, fun hc => ?_, fun hc => ?_, ?_, ?_, fun q hq => ?_⟩
  · rw [if_pos hc, at_raw, if_pos rfl]; exact ⟨rfl, rfl⟩
  · rw [if_neg hc]
    refine ⟨?_, fun n hn => ?_, rfl⟩
    · show lookupKey name (assocSet _ _ _) = _
      rw [lookupKey_assocSet, if_pos rfl]
    · show lookupKey n (assocSet _ _ _) = _
      rw [lookupKey_assocSet, if_neg hn]; rfl
  · split
    · rw [at_raw, if_pos rfl]
    · rfl
  · split
    · rw [at_raw, if_pos rfl]
    · rfl
  · split
    · rw [at_raw, if_neg hq]
    · rfl

/-- **C90**, the code disagrees: a selection shown in one project is shown in every other one, in place of one of the same name. -/
theorem _root_.Tavi.C90_shared {α : Type} (w w' : World α) (p q : ℕ) (name : Str) (conds : List FCond) (logic : FilterLogic)
    (category : Str) (tol : ℚ) (hc : category ≠ "model".toList) (h : w.step (.select p name conds logic category tol) = .ok w') :
    ∃ r, lookupKey name (w'.shownIn q) = some r ∧ lookupKey name (w'.shownIn p) = some r := by
  change World.select _ _ _ _ _ _ _ = _ at h
  rw [World.select] at h
  obtain ⟨scans, _, h⟩ := py_bind_eq_ok.1 h
  obtain ⟨⟨f, r⟩, hr, rfl⟩ := map_eq_ok.1 h
  rw [if_neg hc]
  have : lookupKey name (assocSet w.shown name r) = some r := by rw [lookupKey_assocSet, if_pos rfl]
  exact ⟨r, this, this⟩

/-! ## Combining -/

/-- **C90**, the code disagrees: scans are never combined; for all columns, steps and ranges there is an exception, since the
parameter `range` hides the function `range`. -/
theorem _root_.Tavi.C90_combine_fails (binned : List ℝ → List ℝ → Py (List ℝ × List ℝ)) (scans : List (Option (List ℝ) × Option (List ℝ)))
    (step : ℝ) (range : RangeVal) : ∃ e, combine1d binned scans step range = .error e := by
  cases hc : combine1d binned scans step range with
  | error e => exact ⟨e, rfl⟩
  | ok r =>
    rw [combine1d] at hc
    obtain ⟨_, _, hc⟩ := py_bind_eq_ok.1 hc
    obtain ⟨_, _, hc⟩ := py_bind_eq_ok.1 hc
    obtain ⟨_, _, hc⟩ := py_bind_eq_ok.1 hc
    obtain ⟨is, h, _⟩ := py_bind_eq_ok.1 hc
    cases range <;> exact absurd h (by simp [RangeVal.call])

/-- **C90**: the points binned are all points of all scans, in order; when binning them raises, so does combining, in the same way,
and otherwise it is the call of the range that raises. -/
theorem _root_.Tavi.C90_combine_points (binned : List ℝ → List ℝ → Py (List ℝ × List ℝ)) (scans : List (List ℝ × List ℝ)) (step : ℝ)
    (hs : step ≠ 0) (range : RangeVal) :
    combine1d binned (scans.map fun s => (some s.1, some s.2)) step range =
      match binned (scans.flatMap Prod.fst) (scans.flatMap Prod.snd) with
      | .error e => .error e
      | .ok _ => .error .typeError := by
  have e : ((scans.map fun s => (some s.1, some s.2)).mapM fun s : Option (List ℝ) × Option (List ℝ) =>
      need s.1 .attributeError >>= fun x => need s.2 .attributeError >>= fun y => (.ok (x, y) : Py _)) = .ok scans := by
    rw [List.mapM_map]
    exact (mapM_ok (g := id) fun s _ => rfl).trans (by rw [List.map_id])
  rw [combine1d, e, py_bind_ok]
  cases range with
  | none =>
    dsimp only
    rw [py_bind_ok]
    cases binned (scans.flatMap Prod.fst) (scans.flatMap Prod.snd) <;> rfl
  | pair a b =>
    dsimp only
    rw [if_neg hs, py_bind_ok]
    cases binned (scans.flatMap Prod.fst) (scans.flatMap Prod.snd) <;> rfl

/-! ## Concrete cases -/

namespace Demo

/-- Two loads, the second of which fails, and one of another project. -/
def ops : List (Op ℕ) := [.load 0 none (.ok 7), .load 1 (some "ORNL".toList) (.ok 8), .load 0 (some []) (.error .fileNotFound)]

example : (((World.new ℕ).run ops).projects 0).raw = .scans 7 := by
  have := C90_load_partial ops 0 (fun f r h => by simp [ops] at h; rcases h with ⟨rfl, _⟩ | ⟨rfl, _⟩ <;> simp [CanLoad])
  rw [this]
  rfl

example : ∃ w', ((World.new ℕ).run ops).step (.load 0 (some "ILL".toList) (.ok 9)) = .ok w' ∧ (w'.projects 0).raw = .none :=
  C90_unsupported _ 0 _ _ (by decide) (by decide)

/-- Scans with a temperature. -/
def scans : List (Str × FScan) :=
  [("scan0042.dat".toList, ⟨[], [], [("temp".toList, [4, 5])]⟩), ("scan0041.dat".toList, ⟨[], [], [("temp".toList, [100])]⟩)]

/-- The program sets the list of scans itself. -/
def opsSet : List (Op ℕ) := ops ++ [.setScans 0 scans]

/-- The selection is found. -/
example : ∃ w' l, ((World.new ℕ).run opsSet).step
    (.select 0 "cold".toList [⟨"temp".toList, .less, "10".toList⟩] .or "view".toList 0) = .ok w' ∧
    lookupKey "cold".toList (w'.shownIn 0) = some (some l) ∧ lookupKey "cold".toList (w'.shownIn 1) = some (some l) := by
  have hs : (((World.new ℕ).run opsSet).projects 0).scanList = some scans := by
    rw [opsSet, run_snoc]; rfl
  obtain ⟨f, l, hf⟩ := C53_total scans [⟨"temp".toList, .less, "10".toList⟩] .or 0 (by simp) (.inl rfl)
    (fun c hc _ => by rw [List.mem_singleton.1 hc]; exact ⟨10, by decide +kernel⟩)
    (fun c hc kv hkv => by
      rw [List.mem_singleton.1 hc]
      simp only [scans, List.mem_cons, List.not_mem_nil, or_false] at hkv
      rcases hkv with rfl | rfl
      · exact ⟨[4, 5], rfl, by simp⟩
      · exact ⟨[100], rfl, by simp⟩)
  have hstep : ∃ w', ((World.new ℕ).run opsSet).step
      (.select 0 "cold".toList [⟨"temp".toList, .less, "10".toList⟩] .or "view".toList 0) = .ok w' := by
    show ∃ w', World.select _ _ _ _ _ _ _ = _
    rw [World.select, hs, need_some, py_bind_ok, hf]
    exact ⟨_, rfl⟩
  obtain ⟨w', hw⟩ := hstep
  obtain ⟨l, _, _, _, _, h5, _⟩ := C90_select_partial _ w' 0 _ _ _ _ _ scans hs (by decide) (by simp) (by simp) (.inl rfl) hw
  exact ⟨w', l, hw, (h5 (by decide)).1, (h5 (by decide)).1⟩

end Demo

end Manager

end Tavi
