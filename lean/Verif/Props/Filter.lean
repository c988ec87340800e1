import Verif.Model.App
import Verif.Lemmas.Assoc
import Verif.Lemmas.Text
import Verif.Props.Group

/-! # C53: filtering scans -/

namespace Tavi

theorem map_eq_ok {α β : Type} {x : Py α} {f : α → β} {b : β} : x.map f = .ok b ↔ ∃ a, x = .ok a ∧ f a = b := by
  cases x with
  | error e => simp [Except.map]
  | ok a => simp [Except.map]

/-! ## Sorting -/

theorem mem_sortStr {l : List Str} {x : Str} : x ∈ sortStr l ↔ x ∈ l := (List.perm_insertionSort _ l).mem_iff

theorem sortStr_sorted (l : List Str) : (sortStr l).Pairwise (· ≤ ·) := List.pairwise_insertionSort _ l

theorem sortStr_perm (l : List Str) : (sortStr l).Perm l := List.perm_insertionSort _ l

theorem sortStr_strict {l : List Str} (h : l.Nodup) : (sortStr l).Pairwise (· < ·) := by
  have h1 := sortStr_sorted l
  have h2 : (sortStr l).Nodup := (sortStr_perm l).nodup_iff.2 h
  exact (h1.and h2).imp fun ⟨a, b⟩ => lt_of_le_of_ne a b

/-- Two strictly increasing lists with the same members are equal. -/
theorem sorted_unique {l m : List Str} (hl : l.Pairwise (· < ·)) (hm : m.Pairwise (· < ·)) (h : ∀ x, x ∈ l ↔ x ∈ m) :
    l = m := by
  refine List.Perm.eq_of_pairwise (le := (· < ·)) (fun a b _ _ h1 h2 => absurd h1 (lt_asymm h2)) hl hm ?_
  refine (List.perm_ext_iff_of_nodup (hl.imp fun h => ne_of_lt h) (hm.imp fun h => ne_of_lt h)).2 h

/-! ## Minimum and maximum -/

theorem foldl_max (l : List ℚ) (a y : ℚ) : (l.foldl max a ≤ y ↔ ∀ p ∈ a :: l, p ≤ y) ∧ (l.foldl max a < y ↔ ∀ p ∈ a :: l, p < y) := by
  induction l generalizing a with
  | nil => simp
  | cons b l ih =>
    rw [List.foldl_cons, (ih (max a b)).1, (ih (max a b)).2]
    simp only [List.forall_mem_cons, max_le_iff, max_lt_iff, and_assoc, and_self]

theorem foldl_min (l : List ℚ) (a y : ℚ) : (y ≤ l.foldl min a ↔ ∀ p ∈ a :: l, y ≤ p) ∧ (y < l.foldl min a ↔ ∀ p ∈ a :: l, y < p) := by
  induction l generalizing a with
  | nil => simp
  | cons b l ih =>
    rw [List.foldl_cons, (ih (min a b)).1, (ih (min a b)).2]
    simp only [List.forall_mem_cons, le_min_iff, lt_min_iff, and_assoc, and_self]

theorem pyMax_ok {l : List ℚ} {m : ℚ} (h : pyMax l = .ok m) (y : ℚ) :
    (m ≤ y ↔ ∀ p ∈ l, p ≤ y) ∧ (m < y ↔ ∀ p ∈ l, p < y) := by
  cases l with
  | nil => simp [pyMax] at h
  | cons a l =>
    obtain rfl := Except.ok.inj h
    exact foldl_max l a y

theorem pyMin_ok {l : List ℚ} {m : ℚ} (h : pyMin l = .ok m) (y : ℚ) :
    (y ≤ m ↔ ∀ p ∈ l, y ≤ p) ∧ (y < m ↔ ∀ p ∈ l, y < p) := by
  cases l with
  | nil => simp [pyMin] at h
  | cons a l =>
    obtain rfl := Except.ok.inj h
    exact foldl_min l a y

/-! ## What the conditions mean -/

/-- The scan has this attribute in its metadata, or else in its UB configuration. -/
def Spec.HasAttr (scan : FScan) (keyword : Str) (v : AttrVal) : Prop :=
  lookupKey keyword scan.metadata = some v ∨ (lookupKey keyword scan.metadata = none ∧ lookupKey keyword scan.ubconf = some v)

/-- The text occurs in the attribute. -/
def Spec.OccursIn (value : Str) : AttrVal → Prop
  | .str s => value <:+: s
  | .strs l => value ∈ l
  | .num _ => False

/-- What a condition asks of a scan. -/
def Spec.Meets (tol : ℚ) (c : FCond) (scan : FScan) : Prop :=
  match c.op with
  | .contains => ∃ v, Spec.HasAttr scan c.keyword v ∧ Spec.OccursIn c.value v
  | .notContain => ∃ v, Spec.HasAttr scan c.keyword v ∧ ¬ Spec.OccursIn c.value v
  | .is => Spec.HasAttr scan c.keyword (.str c.value)
  | .isNot => ∃ v, Spec.HasAttr scan c.keyword v ∧ v ≠ .str c.value
  | .equal => ∃ col x, lookupKey c.keyword scan.data = some col ∧ pyFloat c.value = .ok x ∧ ∀ p ∈ col, |p - x| ≤ tol
  | .notEqual => ∃ col x, lookupKey c.keyword scan.data = some col ∧ pyFloat c.value = .ok x ∧
      ((∀ p ∈ col, x + tol < p) ∨ ∀ p ∈ col, p < x - tol)
  | .less => ∃ col x, lookupKey c.keyword scan.data = some col ∧ pyFloat c.value = .ok x ∧ ∀ p ∈ col, p < x
  | .lessEqual => ∃ col x, lookupKey c.keyword scan.data = some col ∧ pyFloat c.value = .ok x ∧ ∀ p ∈ col, p ≤ x
  | .greater => ∃ col x, lookupKey c.keyword scan.data = some col ∧ pyFloat c.value = .ok x ∧ ∀ p ∈ col, x < p
  | .greaterEqual => ∃ col x, lookupKey c.keyword scan.data = some col ∧ pyFloat c.value = .ok x ∧ ∀ p ∈ col, x ≤ p

theorem metaAttr_ok {scan : FScan} {k : Str} {v : AttrVal} : metaAttr scan k = .ok v ↔ Spec.HasAttr scan k v := by
  rw [metaAttr, Spec.HasAttr]
  cases h1 : lookupKey k scan.metadata with
  | some w => simp
  | none =>
    cases h2 : lookupKey k scan.ubconf with
    | some w => simp
    | none => simp

theorem hasAttr_unique {scan : FScan} {k : Str} {v w : AttrVal} (h : Spec.HasAttr scan k v) (h' : Spec.HasAttr scan k w) :
    v = w := by
  rw [← metaAttr_ok] at h h'
  exact Except.ok.inj (h.symm.trans h')

theorem attrContains_ok {value : Str} {v : AttrVal} {b : Bool} (h : attrContains value v = .ok b) :
    (b = true ↔ Spec.OccursIn value v) := by
  cases v with
  | str s => obtain rfl := Except.ok.inj h; exact isSubstr_iff _ _
  | strs l => obtain rfl := Except.ok.inj h; exact decide_eq_true_iff
  | num x => simp [attrContains] at h

/-- One scan, metadata conditions. -/
theorem metaMeets_ok {tol : ℚ} {c : FCond} {scan : FScan} {v : AttrVal} {b : Bool} (hm : c.op.isMeta = true)
    (hv : Spec.HasAttr scan c.keyword v) (h : metaMeets c.op c.value v = .ok b) : (b = true ↔ Spec.Meets tol c scan) := by
  have uniq : ∀ w, Spec.HasAttr scan c.keyword w → w = v := fun w hw => hasAttr_unique hw hv
  rw [Spec.Meets]
  cases hop : c.op <;> rw [hop] at h hm <;> dsimp only <;> dsimp only [metaMeets] at h
  · rw [attrContains_ok h]
    exact ⟨fun h => ⟨v, hv, h⟩, fun ⟨w, hw, h⟩ => uniq w hw ▸ h⟩
  · obtain ⟨b', hb', rfl⟩ := map_eq_ok.1 h
    have := attrContains_ok hb'
    rw [Bool.not_eq_true', ← Bool.not_eq_true, this]
    exact ⟨fun h => ⟨v, hv, h⟩, fun ⟨w, hw, h⟩ => uniq w hw ▸ h⟩
  · obtain rfl := Except.ok.inj h
    rw [decide_eq_true_iff]
    exact ⟨fun h => h ▸ hv, fun h => uniq _ h⟩
  · obtain rfl := Except.ok.inj h
    rw [decide_eq_true_iff]
    exact ⟨fun h => ⟨v, hv, fun h' => h h'.symm⟩, fun ⟨w, hw, h⟩ h' => h (by rw [uniq w hw, h'])⟩
  all_goals exact absurd hm (by decide)

/-- One scan, data conditions other than `<=`. -/
theorem dataMeets_ok {tol : ℚ} {c : FCond} {scan : FScan} {col : List ℚ} {x : ℚ} {b : Bool} (hm : c.op.isMeta = false)
    (hle : c.op ≠ .lessEqual) (hc : lookupKey c.keyword scan.data = some col) (hx : pyFloat c.value = .ok x)
    (h : dataMeets tol c.op x col = .ok b) : (b = true ↔ Spec.Meets tol c scan) := by
  have red : ∀ P : List ℚ → ℚ → Prop,
      (∃ col x, lookupKey c.keyword scan.data = some col ∧ pyFloat c.value = .ok x ∧ P col x) ↔ P col x := by
    intro P
    rw [hc, hx]
    constructor
    · rintro ⟨_, _, h1, h2, h3⟩
      obtain rfl := Option.some.inj h1
      obtain rfl := Except.ok.inj h2
      exact h3
    · intro h; exact ⟨col, x, rfl, rfl, h⟩
  rw [Spec.Meets]
  cases hop : c.op <;> rw [hop] at h hm hle <;> dsimp only <;> dsimp only [dataMeets] at h
  all_goals try exact absurd hm (by decide)
  · rw [red]
    obtain ⟨hi, h1, h⟩ := py_bind_eq_ok.1 h
    have m1 := (pyMax_ok h1 (x + tol)).1
    split at h
    · rename_i hge
      obtain ⟨lo, h2, rfl⟩ := map_eq_ok.1 h
      rw [decide_eq_true_iff, (pyMin_ok h2 (x - tol)).1]
      constructor
      · intro hl p hp
        have a := hl p hp
        have b := m1.1 hge p hp
        rw [abs_le]; constructor <;> linarith
      · intro hl p hp
        have := abs_le.1 (hl p hp)
        linarith [this.1]
    · rename_i hge
      obtain rfl := Except.ok.inj h
      refine ⟨fun h => by simp at h, fun hl => absurd (m1.2 fun p hp => ?_) hge⟩
      have := abs_le.1 (hl p hp)
      linarith [this.2]
  · rw [red]
    obtain ⟨lo, h1, h⟩ := py_bind_eq_ok.1 h
    have m1 := (pyMin_ok h1 (x + tol)).2
    split at h
    · rename_i hlt
      obtain rfl := Except.ok.inj h
      exact ⟨fun _ => .inl (m1.1 hlt), fun _ => rfl⟩
    · rename_i hlt
      obtain ⟨hi, h2, rfl⟩ := map_eq_ok.1 h
      rw [decide_eq_true_iff, gt_iff_lt, (pyMax_ok h2 (x - tol)).2]
      exact ⟨.inr, fun h => h.resolve_left fun h => hlt (m1.2 h)⟩
  · rw [red]
    obtain ⟨hi, h1, rfl⟩ := map_eq_ok.1 h
    rw [decide_eq_true_iff, (pyMax_ok h1 x).2]
  · exact absurd rfl hle
  · rw [red]
    obtain ⟨lo, h1, rfl⟩ := map_eq_ok.1 h
    rw [decide_eq_true_iff, gt_iff_lt, (pyMin_ok h1 x).2]
  · rw [red]
    obtain ⟨lo, h1, rfl⟩ := map_eq_ok.1 h
    rw [decide_eq_true_iff, ge_iff_le, (pyMin_ok h1 x).1]

theorem filterLoop_mem {meets : FScan → Py Bool} {scans : List (Str × FScan)} {out : List Str}
    (h : filterLoop meets scans = .ok out) :
    (∀ kv ∈ scans, ∃ b, meets kv.2 = .ok b) ∧ ∀ n, n ∈ out ↔ ∃ scan, (n, scan) ∈ scans ∧ meets scan = .ok true := by
  induction scans generalizing out with
  | nil => obtain rfl := Except.ok.inj h; simp
  | cons kv rest ih =>
    obtain ⟨name, scan⟩ := kv
    rw [filterLoop] at h
    obtain ⟨b, hb, h⟩ := py_bind_eq_ok.1 h
    obtain ⟨out', ho, rfl⟩ := map_eq_ok.1 h
    obtain ⟨i1, i2⟩ := ih ho
    refine ⟨?_, fun n => ?_⟩
    · intro kv hkv
      rcases List.mem_cons.1 hkv with rfl | hkv
      · exact ⟨b, hb⟩
      · exact i1 kv hkv
    · have key : n ∈ (if b = true then name :: out' else out') ↔ (n = name ∧ b = true) ∨ n ∈ out' := by
        split <;> simp_all
      rw [key, i2]
      constructor
      · rintro (⟨rfl, rfl⟩ | ⟨s, hs, hm⟩)
        · exact ⟨scan, by simp, hb⟩
        · exact ⟨s, by simp [hs], hm⟩
      · rintro ⟨s, hs, hm⟩
        rcases List.mem_cons.1 hs with h | h
        · obtain ⟨rfl, rfl⟩ := Prod.mk.inj h
          exact .inl ⟨rfl, Except.ok.inj (hb.symm.trans hm)⟩
        · exact .inr ⟨s, h, hm⟩

/-- One condition. -/
theorem conditionFactory_mem {scans : List (Str × FScan)} {tol : ℚ} {c : FCond} {out : List Str} (hle : c.op ≠ .lessEqual)
    (h : conditionFactory scans tol c = .ok out) (n : Str) :
    n ∈ out ↔ ∃ scan, (n, scan) ∈ scans ∧ Spec.Meets tol c scan := by
  rw [conditionFactory] at h
  obtain ⟨x, hx, h⟩ := py_bind_eq_ok.1 h
  obtain ⟨h1, h2⟩ := filterLoop_mem h
  rw [h2]
  refine exists_congr fun scan => and_congr_right fun hs => ?_
  obtain ⟨b, hb⟩ := h1 _ hs
  have key : b = true ↔ Spec.Meets tol c scan := by
    rw [scanMeets] at hb
    cases hm : c.op.isMeta with
    | true =>
      rw [hm, if_pos rfl] at hb
      obtain ⟨v, hv, hb⟩ := py_bind_eq_ok.1 hb
      exact metaMeets_ok hm (metaAttr_ok.1 hv) hb
    | false =>
      rw [hm] at hb hx
      rw [if_neg (by simp)] at hb hx
      obtain ⟨col, hcol, hb⟩ := py_bind_eq_ok.1 hb
      exact dataMeets_ok hm hle (need_eq_ok.1 hcol) hx hb
  rw [← key]
  exact ⟨fun h => Except.ok.inj (hb.symm.trans h), fun h => by rw [← h]; exact hb⟩

/-! ## The whole filter -/

theorem unionOf_spec (output : List (List Str)) :
    (unionOf output).Pairwise (· < ·) ∧ ∀ n, n ∈ unionOf output ↔ ∃ o ∈ output, n ∈ o := by
  refine ⟨sortStr_strict (List.nodup_dedup _), fun n => ?_⟩
  rw [unionOf, mem_sortStr, List.mem_dedup, List.mem_flatten]

theorem intersectionOf_spec {output : List (List Str)} (h : output ≠ []) :
    ∃ l, intersectionOf output = .ok l ∧ l.Pairwise (· < ·) ∧ ∀ n, n ∈ l ↔ ∀ o ∈ output, n ∈ o := by
  cases output with
  | nil => exact absurd rfl h
  | cons o os =>
    refine ⟨_, rfl, sortStr_strict (List.nodup_dedup _), fun n => ?_⟩
    rw [mem_sortStr, List.mem_dedup, List.mem_filter, List.all_eq_true, List.forall_mem_cons]
    simp only [decide_eq_true_eq]

/-- The answers when the earlier output is `k` copies of the output of the conditions. -/
theorem filterData_out {f f' : Filter} {l : List Str} (h : f.filterData = .ok (f', some l)) :
    ∃ out, f.conditions ≠ [] ∧ f.conditions.mapM (conditionFactory f.scans f.tol) = .ok out ∧
      f' = { f with output := f.output ++ out } ∧
      ((∃ _ : f.logic = .or, l = unionOf (f.output ++ out)) ∨ (∃ _ : f.logic = .and, intersectionOf (f.output ++ out) = .ok l)) := by
  rw [Filter.filterData] at h
  split at h
  · simp at h
  · rename_i hne
    obtain ⟨out, ho, h⟩ := py_bind_eq_ok.1 h
    refine ⟨out, hne, ho, ?_⟩
    cases hl : f.logic <;> rw [hl] at h <;> dsimp only at h
    · obtain ⟨m, hm, h⟩ := map_eq_ok.1 h
      obtain ⟨h1, h2⟩ := Prod.mk.inj h
      obtain rfl := Option.some.inj h2
      exact ⟨h1.symm, .inr ⟨rfl, hm⟩⟩
    · obtain ⟨h1, h2⟩ := Prod.mk.inj (Except.ok.inj h)
      exact ⟨h1.symm, .inl ⟨rfl, (Option.some.inj h2).symm⟩⟩
    · simp at h

/-- Every answer of the filter, whatever was asked before with the same conditions. -/
theorem filterData_spec {f f' : Filter} {l : List Str} (hout : ∀ o ∈ f.output, ∃ c ∈ f.conditions, conditionFactory f.scans f.tol c = .ok o)
    (hle : ∀ c ∈ f.conditions, c.op ≠ .lessEqual) (hkeys : (f.scans.map Prod.fst).Nodup)
    (h : f.filterData = .ok (f', some l)) :
    l.Pairwise (· < ·) ∧
    (f.logic = .or → ∀ n, n ∈ l ↔ ∃ scan, (n, scan) ∈ f.scans ∧ ∃ c ∈ f.conditions, Spec.Meets f.tol c scan) ∧
    (f.logic = .and → ∀ n, n ∈ l ↔ ∃ scan, (n, scan) ∈ f.scans ∧ ∀ c ∈ f.conditions, Spec.Meets f.tol c scan) ∧
    (∀ o ∈ f'.output, ∃ c ∈ f.conditions, conditionFactory f.scans f.tol c = .ok o) := by
  obtain ⟨out, hne, ho, rfl, hl⟩ := filterData_out h
  have hall := mapM_ok_inv ho
  have hfrom : ∀ o ∈ f.output ++ out, ∃ c ∈ f.conditions, conditionFactory f.scans f.tol c = .ok o := by
    intro o hmem
    rcases List.mem_append.1 hmem with h | h
    · exact hout o h
    · obtain ⟨i, hi, rfl⟩ := List.getElem_of_mem h
      have hi' : i < f.conditions.length := by rw [hall.length_eq]; exact hi
      exact ⟨f.conditions[i], List.getElem_mem hi', hall.get hi' hi⟩
  have hto : ∀ c ∈ f.conditions, ∃ o ∈ f.output ++ out, conditionFactory f.scans f.tol c = .ok o := by
    intro c hc
    obtain ⟨i, hi, rfl⟩ := List.getElem_of_mem hc
    have hi' : i < out.length := by rw [← hall.length_eq]; exact hi
    exact ⟨out[i], List.mem_append.2 (.inr (List.getElem_mem hi')), hall.get hi hi'⟩
  have uniq : ∀ {n s s'}, (n, s) ∈ f.scans → (n, s') ∈ f.scans → s = s' := by
    intro n s s' h1 h2
    have a := (lookupKey_mem hkeys).2 h1
    have b := (lookupKey_mem hkeys).2 h2
    exact Option.some.inj (a.symm.trans b)
  refine ⟨?_, ?_, ?_, hfrom⟩
  · rcases hl with ⟨_, rfl⟩ | ⟨_, hi⟩
    · exact (unionOf_spec _).1
    · obtain ⟨l', h1, h2, _⟩ := intersectionOf_spec (output := f.output ++ out)
        (by rintro h0; rw [h0] at hi; simp [intersectionOf] at hi)
      obtain rfl := Except.ok.inj (hi.symm.trans h1)
      exact h2
  · intro hlog n
    rcases hl with ⟨_, rfl⟩ | ⟨h', _⟩
    · rw [(unionOf_spec _).2]
      constructor
      · rintro ⟨o, ho, hn⟩
        obtain ⟨c, hc, hco⟩ := hfrom o ho
        obtain ⟨s, hs, hm⟩ := (conditionFactory_mem (hle c hc) hco n).1 hn
        exact ⟨s, hs, c, hc, hm⟩
      · rintro ⟨s, hs, c, hc, hm⟩
        obtain ⟨o, ho, hco⟩ := hto c hc
        exact ⟨o, ho, (conditionFactory_mem (hle c hc) hco n).2 ⟨s, hs, hm⟩⟩
    · rw [hlog] at h'; cases h'
  · intro hlog n
    rcases hl with ⟨h', _⟩ | ⟨_, hi⟩
    · rw [hlog] at h'; cases h'
    · obtain ⟨l', h1, _, h3⟩ := intersectionOf_spec (output := f.output ++ out)
        (by rintro h0; rw [h0] at hi; simp [intersectionOf] at hi)
      obtain rfl := Except.ok.inj (hi.symm.trans h1)
      rw [h3]
      constructor
      · intro hn
        obtain ⟨c0, hc0⟩ := List.exists_mem_of_ne_nil _ hne
        obtain ⟨o, ho, hco⟩ := hto c0 hc0
        obtain ⟨s, hs, _⟩ := (conditionFactory_mem (hle c0 hc0) hco n).1 (hn o ho)
        refine ⟨s, hs, fun c hc => ?_⟩
        obtain ⟨o, ho, hco⟩ := hto c hc
        obtain ⟨s', hs', hm⟩ := (conditionFactory_mem (hle c hc) hco n).1 (hn o ho)
        rwa [uniq hs hs']
      · rintro ⟨s, hs, hm⟩ o ho
        obtain ⟨c, hc, hco⟩ := hfrom o ho
        exact (conditionFactory_mem (hle c hc) hco n).2 ⟨s, hs, hm c hc⟩

/-- Asking the filter again and again. -/
inductive Filter.Runs : Filter → List (Option (List Str)) → Filter → Prop
  | nil (f) : Filter.Runs f [] f
  | step (f f' f'' a as) : Filter.filterData f = .ok (f', a) → Filter.Runs f' as f'' → Filter.Runs f (a :: as) f''

/-- **C53** (partial): every answer, the first and all later ones, is the strictly increasing list of exactly the scans that
meet some (or) / all (and) of the conditions. Missing: `<=`, see `C53_le_wrong`. -/
theorem C53_filter_partial (scans : List (Str × FScan)) (conds : List FCond) (logic : FilterLogic) (tol : ℚ)
    (hkeys : (scans.map Prod.fst).Nodup) (hle : ∀ c ∈ conds, c.op ≠ .lessEqual) (answers : List (Option (List Str))) (f : Filter)
    (h : Filter.Runs (Filter.init scans conds logic tol) answers f) (l : List Str) (hl : some l ∈ answers) :
    l.Pairwise (· < ·) ∧
    (logic = .or → ∀ n, n ∈ l ↔ ∃ scan, (n, scan) ∈ scans ∧ ∃ c ∈ conds, Spec.Meets tol c scan) ∧
    (logic = .and → ∀ n, n ∈ l ↔ ∃ scan, (n, scan) ∈ scans ∧ ∀ c ∈ conds, Spec.Meets tol c scan) := by
  generalize hf : Filter.init scans conds logic tol = f0 at h
  have inv : f0.scans = scans ∧ f0.conditions = conds ∧ f0.logic = logic ∧ f0.tol = tol ∧
      ∀ o ∈ f0.output, ∃ c ∈ conds, conditionFactory scans tol c = .ok o := by
    subst hf; exact ⟨rfl, rfl, rfl, rfl, fun o ho => absurd ho (by simp [Filter.init])⟩
  clear hf
  induction h with
  | nil f => simp at hl
  | step f f' f'' a as hstep _ ih =>
    obtain ⟨rfl, rfl, rfl, rfl, ho⟩ := inv
    cases a with
    | none =>
      have : some l ∈ as := by simpa using hl
      refine ih this ?_
      rw [Filter.filterData] at hstep
      split at hstep
      · obtain ⟨rfl, _⟩ := Prod.mk.inj (Except.ok.inj hstep)
        exact ⟨rfl, rfl, rfl, rfl, ho⟩
      · obtain ⟨out, hout, hstep⟩ := py_bind_eq_ok.1 hstep
        have hall := mapM_ok_inv hout
        cases hlog : f.logic <;> rw [hlog] at hstep <;> dsimp only at hstep
        · obtain ⟨m, hm, h⟩ := map_eq_ok.1 hstep
          simp at h
        · simp at hstep
        · obtain ⟨rfl, _⟩ := Prod.mk.inj (Except.ok.inj hstep)
          refine ⟨rfl, rfl, hlog ▸ rfl, rfl, fun o hmem => ?_⟩
          rcases List.mem_append.1 hmem with h | h
          · exact ho o h
          · obtain ⟨i, hi, rfl⟩ := List.getElem_of_mem h
            have hi' : i < f.conditions.length := by rw [hall.length_eq]; exact hi
            exact ⟨f.conditions[i], List.getElem_mem hi', hall.get hi' hi⟩
    | some m =>
      obtain ⟨h1, h2, h3, h4⟩ := filterData_spec ho hle hkeys hstep
      obtain ⟨out, _, _, rfl, _⟩ := filterData_out hstep
      rcases List.mem_cons.1 hl with h | h
      · obtain rfl := Option.some.inj h
        exact ⟨h1, h2, h3⟩
      · exact ih h ⟨rfl, rfl, rfl, rfl, h4⟩

/-- One call, in terms of what the single conditions give, whatever they mean. -/
theorem filterData_raw {f f' : Filter} {l : List Str} {conds : List FCond} {scans : List (Str × FScan)} {tol : ℚ}
    (hc : f.conditions = conds) (hs : f.scans = scans) (ht : f.tol = tol)
    (ho : ∀ o ∈ f.output, ∃ c ∈ conds, conditionFactory scans tol c = .ok o) (h : f.filterData = .ok (f', some l)) :
    l.Pairwise (· < ·) ∧ f'.logic = f.logic ∧ (f.logic = .or ∨ f.logic = .and) ∧
    (f.logic = .or → ∀ n, n ∈ l ↔ ∃ c ∈ conds, ∃ o, conditionFactory scans tol c = .ok o ∧ n ∈ o) ∧
    (f.logic = .and → ∀ n, n ∈ l ↔ ∀ c ∈ conds, ∃ o, conditionFactory scans tol c = .ok o ∧ n ∈ o) ∧
    f'.conditions = conds ∧ f'.scans = scans ∧ f'.tol = tol ∧
    ∀ o ∈ f'.output, ∃ c ∈ conds, conditionFactory scans tol c = .ok o := by
  subst hc hs ht
  obtain ⟨out, hne, ho', rfl, hl⟩ := filterData_out h
  have hall := mapM_ok_inv ho'
  have hfrom : ∀ o ∈ f.output ++ out, ∃ c ∈ f.conditions, conditionFactory f.scans f.tol c = .ok o := by
    intro o hmem
    rcases List.mem_append.1 hmem with h | h
    · exact ho o h
    · obtain ⟨i, hi, rfl⟩ := List.getElem_of_mem h
      have hi' : i < f.conditions.length := by rw [hall.length_eq]; exact hi
      exact ⟨f.conditions[i], List.getElem_mem hi', hall.get hi' hi⟩
  have hto : ∀ c ∈ f.conditions, ∃ o ∈ f.output ++ out, conditionFactory f.scans f.tol c = .ok o := by
    intro c hc
    obtain ⟨i, hi, rfl⟩ := List.getElem_of_mem hc
    have hi' : i < out.length := by rw [← hall.length_eq]; exact hi
    exact ⟨out[i], List.mem_append.2 (.inr (List.getElem_mem hi')), hall.get hi hi'⟩
  rcases hl with ⟨hlog, rfl⟩ | ⟨hlog, hi⟩
  · refine ⟨(unionOf_spec _).1, rfl, .inl hlog, fun _ n => ?_, fun h' => (by rw [hlog] at h'; cases h'), rfl, rfl, rfl, hfrom⟩
    rw [(unionOf_spec _).2]
    constructor
    · rintro ⟨o, ho, hn⟩
      obtain ⟨c, hc, hco⟩ := hfrom o ho
      exact ⟨c, hc, o, hco, hn⟩
    · rintro ⟨c, hc, o', hco', hn⟩
      obtain ⟨o, ho, hco⟩ := hto c hc
      obtain rfl := Except.ok.inj (hco.symm.trans hco')
      exact ⟨o, ho, hn⟩
  · obtain ⟨l', h1, h2, h3⟩ := intersectionOf_spec (output := f.output ++ out)
      (by rintro h0; rw [h0] at hi; simp [intersectionOf] at hi)
    obtain rfl := Except.ok.inj (hi.symm.trans h1)
    refine ⟨h2, rfl, .inr hlog, fun h' => (by rw [hlog] at h'; cases h'), fun _ n => ?_, rfl, rfl, rfl, hfrom⟩
    rw [h3]
    constructor
    · intro hn c hc
      obtain ⟨o, ho, hco⟩ := hto c hc
      exact ⟨o, hco, hn o ho⟩
    · intro hn o ho
      obtain ⟨c, hc, hco⟩ := hfrom o ho
      obtain ⟨o', hco', hn'⟩ := hn c hc
      obtain rfl := Except.ok.inj (hco.symm.trans hco')
      exact hn'

/-- **C53**: repeating the call gives the same answer, whatever the conditions. -/
theorem C53_repeat (scans : List (Str × FScan)) (conds : List FCond) (logic : FilterLogic) (tol : ℚ)
    (answers : List (Option (List Str))) (f : Filter)
    (h : Filter.Runs (Filter.init scans conds logic tol) answers f) (l m : List Str) (hl : some l ∈ answers)
    (hm : some m ∈ answers) : l = m := by
  have key : ∀ l, some l ∈ answers → l.Pairwise (· < ·) ∧ (logic = .or ∨ logic = .and) ∧
      (logic = .or → ∀ n, n ∈ l ↔ ∃ c ∈ conds, ∃ o, conditionFactory scans tol c = .ok o ∧ n ∈ o) ∧
      (logic = .and → ∀ n, n ∈ l ↔ ∀ c ∈ conds, ∃ o, conditionFactory scans tol c = .ok o ∧ n ∈ o) := by
    clear hl hm
    intro l hl
    generalize hf : Filter.init scans conds logic tol = f0 at h
    have inv : f0.scans = scans ∧ f0.conditions = conds ∧ f0.logic = logic ∧ f0.tol = tol ∧
        ∀ o ∈ f0.output, ∃ c ∈ conds, conditionFactory scans tol c = .ok o := by
      subst hf; exact ⟨rfl, rfl, rfl, rfl, fun o ho => absurd ho (by simp [Filter.init])⟩
    clear hf
    induction h with
    | nil f => simp at hl
    | step f f' f'' a as hstep _ ih =>
      obtain ⟨hs, hc, hlg, ht, ho⟩ := inv
      cases a with
      | none =>
        have : some l ∈ as := by simpa using hl
        refine ih this ?_
        rw [Filter.filterData] at hstep
        split at hstep
        · obtain ⟨rfl, _⟩ := Prod.mk.inj (Except.ok.inj hstep)
          exact ⟨hs, hc, hlg, ht, ho⟩
        · obtain ⟨out, hout, hstep⟩ := py_bind_eq_ok.1 hstep
          have hall := mapM_ok_inv hout
          subst hs hc ht
          cases hlog : f.logic <;> rw [hlog] at hstep <;> dsimp only at hstep
          · obtain ⟨m, hm, h⟩ := map_eq_ok.1 hstep
            simp at h
          · simp at hstep
          · obtain ⟨rfl, _⟩ := Prod.mk.inj (Except.ok.inj hstep)
            refine ⟨rfl, rfl, hlg ▸ hlog ▸ rfl, rfl, fun o hmem => ?_⟩
            rcases List.mem_append.1 hmem with h | h
            · exact ho o h
            · obtain ⟨i, hi, rfl⟩ := List.getElem_of_mem h
              have hi' : i < f.conditions.length := by rw [hall.length_eq]; exact hi
              exact ⟨f.conditions[i], List.getElem_mem hi', hall.get hi' hi⟩
      | some m =>
        obtain ⟨h1, h2, h2', h3, h4, h5, h6, h7, h8⟩ := filterData_raw hc hs ht ho hstep
        rcases List.mem_cons.1 hl with h | h
        · obtain rfl := Option.some.inj h
          rw [hlg] at h2' h3 h4
          exact ⟨h1, h2', h3, h4⟩
        · exact ih h ⟨h6, h5, h2.trans hlg, h7, h8⟩
  obtain ⟨a1, hlog, a2, a3⟩ := key l hl
  obtain ⟨b1, _, b2, b3⟩ := key m hm
  rcases hlog with h | h
  · exact sorted_unique a1 b1 fun x => (a2 h x).trans (b2 h x).symm
  · exact sorted_unique a1 b1 fun x => (a3 h x).trans (b3 h x).symm

/-- When a condition can be decided for a scan: its keyword is there and not an unsuitable number, or its column is there and
not empty. -/
def Spec.Answerable (c : FCond) (scan : FScan) : Prop :=
  if c.op.isMeta then ∃ v, Spec.HasAttr scan c.keyword v ∧ ∀ x, v ≠ .num x
  else ∃ col, lookupKey c.keyword scan.data = some col ∧ col ≠ []

theorem filterLoop_total {meets : FScan → Py Bool} {scans : List (Str × FScan)} (h : ∀ kv ∈ scans, ∃ b, meets kv.2 = .ok b) :
    ∃ out, filterLoop meets scans = .ok out := by
  induction scans with
  | nil => exact ⟨[], rfl⟩
  | cons kv rest ih =>
    obtain ⟨name, scan⟩ := kv
    obtain ⟨b, hb⟩ := h _ List.mem_cons_self
    obtain ⟨out, ho⟩ := ih fun kv hkv => h kv (List.mem_cons_of_mem _ hkv)
    dsimp only at hb
    rw [filterLoop, hb, ho]
    exact ⟨_, rfl⟩

theorem dataMeets_total {tol x : ℚ} {op : FilterOp} {col : List ℚ} (h : col ≠ []) : ∃ b, dataMeets tol op x col = .ok b := by
  cases col with
  | nil => exact absurd rfl h
  | cons a l =>
    cases op <;> simp only [dataMeets, pyMax, pyMin]
    all_goals try exact ⟨_, rfl⟩
    · by_cases h1 : x + tol ≥ l.foldl max a
      · exact ⟨_, if_pos h1⟩
      · exact ⟨_, if_neg h1⟩
    · by_cases h1 : x + tol < l.foldl min a
      · exact ⟨_, if_pos h1⟩
      · exact ⟨_, if_neg h1⟩

/-- **C53**: the filter answers whenever there is a condition, the values can be read and every condition can be decided for
every scan. -/
theorem C53_total (scans : List (Str × FScan)) (conds : List FCond) (logic : FilterLogic) (tol : ℚ) (hne : conds ≠ [])
    (hlog : logic = .or ∨ logic = .and) (hval : ∀ c ∈ conds, c.op.isMeta = false → ∃ x, pyFloat c.value = .ok x)
    (hdec : ∀ c ∈ conds, ∀ kv ∈ scans, Spec.Answerable c kv.2) :
    ∃ f l, (Filter.init scans conds logic tol).filterData = .ok (f, some l) := by
  have : ∀ c ∈ conds, ∃ out, conditionFactory scans tol c = .ok out := by
    intro c hc
    have hd := hdec c hc
    rw [conditionFactory]
    cases hm : c.op.isMeta with
    | true =>
      rw [if_pos rfl]
      refine filterLoop_total fun kv hkv => ?_
      have := hd kv hkv
      rw [Spec.Answerable, hm, if_pos rfl] at this
      obtain ⟨v, hv, hn⟩ := this
      rw [scanMeets, hm, if_pos rfl, metaAttr_ok.2 hv]
      show ∃ b, metaMeets c.op c.value v = .ok b
      have hcont : ∃ b, attrContains c.value v = .ok b := by
        cases v with
        | str s => exact ⟨_, rfl⟩
        | strs l => exact ⟨_, rfl⟩
        | num x => exact absurd rfl (hn x)
      obtain ⟨b, hb⟩ := hcont
      cases hop : c.op <;> simp only [metaMeets]
      all_goals first
        | exact ⟨_, hb⟩
        | exact ⟨_, rfl⟩
        | (rw [hb]; exact ⟨_, rfl⟩)
    | false =>
      obtain ⟨x, hx⟩ := hval c hc hm
      rw [if_neg (by simp), hx]
      show ∃ out, filterLoop (scanMeets tol c x) scans = .ok out
      refine filterLoop_total fun kv hkv => ?_
      have := hd kv hkv
      rw [Spec.Answerable, hm, if_neg (by simp)] at this
      obtain ⟨col, hcol, hn⟩ := this
      rw [scanMeets, hm, if_neg (by simp), hcol]
      exact dataMeets_total hn
  choose! g hg using this
  have ho : conds.mapM (conditionFactory scans tol) = .ok (conds.map g) := mapM_ok hg
  rw [Filter.filterData]
  show ∃ f l, (if conds = [] then _ else _) = _
  rw [if_neg hne]
  show ∃ f l, (conds.mapM (conditionFactory scans tol) >>= _) = _
  rw [ho]
  rcases hlog with rfl | rfl
  · exact ⟨_, _, rfl⟩
  · obtain ⟨l, hl, _⟩ := intersectionOf_spec (output := [] ++ conds.map g) (by simpa using hne)
    refine ⟨{ Filter.init scans conds .and tol with output := [] ++ conds.map g }, l, ?_⟩
    show (intersectionOf ([] ++ conds.map g)).map _ = _
    rw [hl]; rfl

/-- **C53**, the code disagrees: `<=` selects the scans with *some* point not above the value. -/
theorem C53_le_wrong (tol x : ℚ) (col : List ℚ) (b : Bool) (h : dataMeets tol .lessEqual x col = .ok b) :
    b = true ↔ ∃ p ∈ col, p ≤ x := by
  obtain ⟨lo, h1, rfl⟩ := map_eq_ok.1 h
  rw [decide_eq_true_iff, ← not_lt, (pyMin_ok h1 x).2]
  push Not
  rfl

/-- **C53**, the code disagrees: one scan without the keyword makes the whole filter raise. -/
theorem C53_missing_fails (scans : List (Str × FScan)) (c : FCond) (logic : FilterLogic) (tol : ℚ) (name : Str) (scan : FScan)
    (hmem : (name, scan) ∈ scans)
    (hno : if c.op.isMeta then ∀ v, ¬ Spec.HasAttr scan c.keyword v else lookupKey c.keyword scan.data = none) (r) :
    (Filter.init scans [c] logic tol).filterData ≠ .ok r := by
  intro h
  rw [Filter.filterData] at h
  change (if [c] = [] then _ else _) = _ at h
  rw [if_neg (by simp)] at h
  obtain ⟨out, ho, _⟩ := py_bind_eq_ok.1 h
  change [c].mapM (conditionFactory scans tol) = _ at ho
  cases mapM_ok_inv ho with
  | cons h1 _ =>
    rw [conditionFactory] at h1
    obtain ⟨x, _, h1⟩ := py_bind_eq_ok.1 h1
    obtain ⟨b, hb⟩ := (filterLoop_mem h1).1 _ hmem
    rw [scanMeets] at hb
    split at hb
    · rename_i hm
      rw [if_pos hm] at hno
      obtain ⟨v, hv, _⟩ := py_bind_eq_ok.1 hb
      exact hno v (metaAttr_ok.1 hv)
    · rename_i hm
      rw [if_neg hm] at hno
      rw [hno] at hb
      obtain ⟨col, hcol, _⟩ := py_bind_eq_ok.1 hb
      simp [need] at hcol

/-- **C53**, the code disagrees: when the conditions of a filter are replaced, the scans of the old ones are still
returned. -/
theorem C53_stale (f f' f'' : Filter) (l m : List Str) (conds : List FCond) (hlog : f.logic = .or)
    (h : f.filterData = .ok (f', some l)) (h' : ({ f' with conditions := conds } : Filter).filterData = .ok (f'', some m)) :
    ∀ n ∈ l, n ∈ m := by
  obtain ⟨out, _, _, rfl, hl⟩ := filterData_out h
  obtain ⟨out', _, _, rfl, hm⟩ := filterData_out h'
  dsimp only at hm
  rcases hl with ⟨_, rfl⟩ | ⟨h0, _⟩
  · rcases hm with ⟨_, rfl⟩ | ⟨h0, _⟩
    · intro n hn
      obtain ⟨o, ho, hno⟩ := ((unionOf_spec _).2 n).1 hn
      exact ((unionOf_spec _).2 n).2 ⟨o, List.mem_append.2 (.inl ho), hno⟩
    · rw [hlog] at h0; cases h0
  · rw [hlog] at h0; cases h0

/-! ## Concrete cases -/

namespace Demo

def fscans : List (Str × FScan) :=
  [("scan0002.dat".toList, ⟨[("title".toList, .str "temp scan".toList)], [], [("temp".toList, [5, 51 / 10, 49 / 10])]⟩),
   ("scan0001.dat".toList, ⟨[("title".toList, .str "field".toList)], [], [("temp".toList, [5, 100])]⟩),
   ("scan0003.dat".toList, ⟨[("title".toList, .str "field".toList)], [], [("temp".toList, [100, 101])]⟩)]

def answer (conds : List FCond) (logic : FilterLogic) : Option (Option (List Str)) :=
  (Filter.init fscans conds logic (1 / 100)).filterData.toOption.map Prod.snd

example : answer [⟨"title".toList, .contains, "temp".toList⟩, ⟨"temp".toList, .greater, "50".toList⟩] .or =
    some (some ["scan0002.dat".toList, "scan0003.dat".toList]) := by decide +kernel
example : answer [⟨"title".toList, .is, "field".toList⟩, ⟨"temp".toList, .greater, "50".toList⟩] .and =
    some (some ["scan0003.dat".toList]) := by decide +kernel
/-- `temp <= 50` selects a scan that goes up to 100. -/
example : answer [⟨"temp".toList, .lessEqual, "50".toList⟩] .or =
    some (some ["scan0001.dat".toList, "scan0002.dat".toList]) := by decide +kernel
example : answer [⟨"tmp".toList, .lessEqual, "50".toList⟩] .or = none := by decide +kernel

end Demo

end Tavi
