import Verif.Model.FitInit
import Verif.Props.FitGuess
import Verif.Props.ScanPlot

/-!
# A fit of a loaded scan fits the points of its file (C96)
-/

namespace Tavi

open Spec

/-! ## The words of the property -/

/-- A point to be fitted: position, value and error. -/
structure Spec.Row where
  pos : Num
  val : Num
  err : Num

/-- The data show exactly these points, in this order. -/
def Spec.Shows (d : ScanData1D) (rows : List Row) : Prop :=
  d.x = rows.map (·.pos) ∧ d.y = rows.map (·.val) ∧ d.err = rows.map (·.err)

open Classical in
/-- The points inside all the ranges, in order. -/
noncomputable def Spec.selected (rs : List (ℝ × ℝ)) (rows : List Row) : List Row :=
  rows.filter fun q => decide (∀ r ∈ rs, Inside r q.pos)

/-- The ranges among the operations. -/
def Spec.rangesOf (ops : List FitOp) : List (ℝ × ℝ) := ops.filterMap fun o => match o with | .range lo hi => some (lo, hi) | _ => none

/-- The signals asked for, known or not. -/
def Spec.signalsOf (ops : List FitOp) : List Str := ops.filterMap fun o => match o with | .signal s => some s | _ => none

/-- The backgrounds asked for, known or not. -/
def Spec.backgroundsOf (ops : List FitOp) : List Str := ops.filterMap fun o => match o with | .background s => some s | _ => none

/-- The models made for the names asked for, counted from 1: the letter, the number and an underscore are the prefix. Names
without a model get none, but are counted. -/
def Spec.modelsFor (c : Char) (l : List Str) : List FitComp :=
  (l.zipIdx 1).filterMap fun p => if p.1 ∈ fitShapes then some (.model (c :: (decStr p.2 ++ ['_'])) p.1) else none

/-- The names an argument stands for; a list is refused. -/
def Spec.Names : ShapesArg → List Str → Prop
  | .nothing, l => l = []
  | .one s, l => l = [s]
  | .tuple l', l => l = l'
  | .list _, _ => False

/-- A fit of these points after these operations: the points inside all ranges, and the models of the names. -/
structure Spec.FitOf (rows : List Row) (ops : List FitOp) (f : Fit1D) : Prop where
  data : f.data = ⟨(selected (rangesOf ops) rows).map (·.pos), (selected (rangesOf ops) rows).map (·.val),
    some ((selected (rangesOf ops) rows).map (·.err))⟩
  signals : f.signals = modelsFor 's' (signalsOf ops)
  backgrounds : f.backgrounds = modelsFor 'b' (backgroundsOf ops)

/-! ## Ranges and components -/

/-- Data with these points. -/
def tableOf (rows : List Row) : FitData := ⟨rows.map (·.pos), rows.map (·.val), some (rows.map (·.err))⟩

theorem mask_rows {α : Type} (rows : List Row) (p : Num → Bool) (g : Row → α) :
    boolMask ((rows.map (·.pos)).map p) (rows.map g) = .ok ((rows.filter fun q => p q.pos).map g) := by
  rw [boolMask, if_pos (by simp)]
  congr 1
  induction rows with
  | nil => rfl
  | cons a rows ih =>
    simp only [List.map_cons, List.zip_cons_cons, List.filter_cons]
    cases p a.pos with
    | true => simp only [if_true, List.map_cons, ih]
    | false => simpa using ih

theorem setRange_table (rows : List Row) (lo hi : ℝ) :
    (tableOf rows).setRange lo hi = (tableOf (rows.filter fun q => inRange lo hi q.pos), none) := by
  rw [FitData.setRange, tableOf]
  dsimp only
  rw [mask_rows rows _ (·.pos), mask_rows rows _ (·.val)]
  dsimp only
  rw [mask_rows rows _ (·.err)]
  rfl

theorem selected_snoc (rs : List (ℝ × ℝ)) (r : ℝ × ℝ) (rows : List Row) :
    selected (rs ++ [r]) rows = (selected rs rows).filter fun q => inRange r.1 r.2 q.pos := by
  classical
  rw [selected, selected, List.filter_filter]
  refine List.filter_congr fun q _ => ?_
  rw [Bool.eq_iff_iff, Bool.and_eq_true, decide_eq_true_iff, decide_eq_true_iff, inRange_iff]
  simp only [List.mem_append, List.mem_singleton]
  constructor
  · intro h; exact ⟨h _ (.inr rfl), fun s hs => h s (.inl hs)⟩
  · rintro ⟨h1, h2⟩ s (hs | rfl)
    · exact h2 s hs
    · exact h1

theorem modelsFor_snoc (c : Char) (l : List Str) (s : Str) :
    modelsFor c (l ++ [s]) = modelsFor c l ++
      (if s ∈ fitShapes then [.model (c :: (decStr (l.length + 1) ++ ['_'])) s] else []) := by
  rw [modelsFor, List.zipIdx_append, List.filterMap_append]
  congr 1
  rw [List.zipIdx_cons, List.zipIdx_nil, Nat.add_comm 1]
  by_cases h : s ∈ fitShapes
  · simp only [List.filterMap_cons, List.filterMap_nil, if_pos h]
  · simp only [List.filterMap_cons, List.filterMap_nil, if_neg h]

theorem fit_of {rows : List Row} {ops : List FitOp} :
    FitOf rows ops ((Fit1D.mk (tableOf rows) [] [] 0 0).run ops) ∧
    ((Fit1D.mk (tableOf rows) [] [] 0 0).run ops).numSignals = (signalsOf ops).length ∧
    ((Fit1D.mk (tableOf rows) [] [] 0 0).run ops).numBackgrounds = (backgroundsOf ops).length := by
  induction ops using List.reverseRecOn with
  | nil =>
    have : selected [] rows = rows := by
      classical
      rw [selected, List.filter_eq_self.2 (fun a _ => by simp)]
    refine ⟨⟨?_, rfl, rfl⟩, rfl, rfl⟩
    show tableOf rows = _
    rw [show rangesOf [] = [] from rfl, this]; rfl
  | append_singleton ops o ih =>
    obtain ⟨⟨h1, h2, h3⟩, h4, h5⟩ := ih
    rw [Fit1D.run, List.foldl_append, List.foldl_cons, List.foldl_nil]
    change FitOf rows _ ((Fit1D.run _ ops).step o).1 ∧ ((Fit1D.run _ ops).step o).1.numSignals = _ ∧
      ((Fit1D.run _ ops).step o).1.numBackgrounds = _
    generalize (Fit1D.mk (tableOf rows) [] [] 0 0).run ops = f at *
    cases o with
    | signal s =>
      have e1 : rangesOf (ops ++ [.signal s]) = rangesOf ops := by simp [rangesOf]
      have e2 : signalsOf (ops ++ [.signal s]) = signalsOf ops ++ [s] := by simp [signalsOf]
      have e3 : backgroundsOf (ops ++ [.signal s]) = backgroundsOf ops := by simp [backgroundsOf]
      rw [Fit1D.step, Fit1D.addSignal, e3, e2]
      dsimp only
      rw [buildShape]
      by_cases hs : s ∈ fitShapes
      · rw [if_pos hs]
        refine ⟨⟨by rw [e1]; exact h1, ?_, by rw [e3]; exact h3⟩, by simp [h4], h5⟩
        rw [e2, modelsFor_snoc, if_pos hs, ← h2, ← h4]; rfl
      · rw [if_neg hs]
        split
        all_goals
          rename_i hc
          split at hc
          all_goals first
            | (cases hc; done)
            | refine ⟨⟨by rw [e1]; exact h1, ?_, by rw [e3]; exact h3⟩, by simp [h4], h5⟩
              rw [e2, modelsFor_snoc, if_neg hs, List.append_nil]; exact h2
    | background s =>
      have e1 : rangesOf (ops ++ [.background s]) = rangesOf ops := by simp [rangesOf]
      have e2 : backgroundsOf (ops ++ [.background s]) = backgroundsOf ops ++ [s] := by simp [backgroundsOf]
      have e3 : signalsOf (ops ++ [.background s]) = signalsOf ops := by simp [signalsOf]
      rw [Fit1D.step, Fit1D.addBackground, e3, e2]
      dsimp only
      rw [buildShape]
      by_cases hs : s ∈ fitShapes
      · rw [if_pos hs]
        refine ⟨⟨by rw [e1]; exact h1, by rw [e3]; exact h2, ?_⟩, h4, by simp [h5]⟩
        rw [e2, modelsFor_snoc, if_pos hs, ← h3, ← h5]; rfl
      · rw [if_neg hs]
        split
        all_goals
          rename_i hc
          split at hc
          all_goals first
            | (cases hc; done)
            | refine ⟨⟨by rw [e1]; exact h1, by rw [e3]; exact h2, ?_⟩, h4, by simp [h5]⟩
              rw [e2, modelsFor_snoc, if_neg hs, List.append_nil]; exact h3
    | range lo hi =>
      have e1 : rangesOf (ops ++ [.range lo hi]) = rangesOf ops ++ [(lo, hi)] := by simp [rangesOf]
      have e2 : backgroundsOf (ops ++ [.range lo hi]) = backgroundsOf ops := by simp [backgroundsOf]
      have e3 : signalsOf (ops ++ [.range lo hi]) = signalsOf ops := by simp [signalsOf]
      rw [Fit1D.step, Fit1D.setRange, e2, e3]
      dsimp only
      refine ⟨⟨?_, by rw [e3]; exact h2, by rw [e2]; exact h3⟩, h4, h5⟩
      dsimp only
      rw [h1, e1, selected_snoc]
      exact congrArg Prod.fst (setRange_table _ lo hi)

/-! ## The constructor -/

theorem addAll_signals (arg : ShapesArg) (f g : Fit1D) :
    arg.addAll Fit1D.addSignal f = .ok g ↔ ∃ l, Names arg l ∧ (∀ s ∈ l, s ∈ fitShapes) ∧ g = f.run (l.map .signal) := by
  have one : ∀ (f g : Fit1D) s, orRaise (f.addSignal s) = .ok g ↔ s ∈ fitShapes ∧ g = f.run [.signal s] := by
    intro f g s
    rw [Fit1D.run, List.foldl_cons, List.foldl_nil, Fit1D.step, Fit1D.addSignal]
    dsimp only
    rw [buildShape]
    by_cases hs : s ∈ fitShapes
    · rw [if_pos hs]
      exact ⟨fun h => ⟨hs, (Except.ok.inj h).symm⟩, fun h => by rw [h.2]; rfl⟩
    · rw [if_neg hs]
      constructor
      · intro h
        split at h
        · cases h
        · rename_i hc; split at hc <;> cases hc
      · exact fun h => absurd h.1 hs
  have many : ∀ (l : List Str) (f g : Fit1D), l.foldlM (fun f s => orRaise (f.addSignal s)) f = .ok g ↔
      (∀ s ∈ l, s ∈ fitShapes) ∧ g = f.run (l.map .signal) := by
    intro l
    induction l with
    | nil => intro f g; exact ⟨fun h => ⟨by simp, (Except.ok.inj h).symm⟩, fun h => by rw [h.2]; rfl⟩
    | cons s l ih =>
      intro f g
      rw [List.foldlM_cons, py_bind_eq_ok]
      constructor
      · rintro ⟨f', h1, h2⟩
        obtain ⟨hs, rfl⟩ := (one _ _ _).1 h1
        obtain ⟨hl, rfl⟩ := (ih _ _).1 h2
        exact ⟨List.forall_mem_cons.2 ⟨hs, hl⟩, rfl⟩
      · rintro ⟨h1, rfl⟩
        obtain ⟨hs, hl⟩ := List.forall_mem_cons.1 h1
        exact ⟨_, (one _ _ _).2 ⟨hs, rfl⟩, (ih _ _).2 ⟨hl, rfl⟩⟩
  cases arg with
  | nothing => exact ⟨fun h => ⟨[], rfl, by simp, (Except.ok.inj h).symm⟩, by rintro ⟨l, rfl, -, rfl⟩; rfl⟩
  | one s =>
    rw [ShapesArg.addAll, one]
    constructor
    · rintro ⟨h, rfl⟩; exact ⟨_, rfl, by simpa using h, rfl⟩
    · rintro ⟨l, rfl, h, rfl⟩; exact ⟨h s List.mem_cons_self, rfl⟩
  | tuple l =>
    rw [ShapesArg.addAll, many]
    constructor
    · rintro ⟨h, rfl⟩; exact ⟨_, rfl, h, rfl⟩
    · rintro ⟨l, rfl, h, rfl⟩; exact ⟨h, rfl⟩
  | list l => exact ⟨fun h => (nomatch h), by rintro ⟨l, h, -⟩; exact h.elim⟩

theorem addAll_backgrounds (arg : ShapesArg) (f g : Fit1D) :
    arg.addAll Fit1D.addBackground f = .ok g ↔ ∃ l, Names arg l ∧ (∀ s ∈ l, s ∈ fitShapes) ∧ g = f.run (l.map .background) := by
  have one : ∀ (f g : Fit1D) s, orRaise (f.addBackground s) = .ok g ↔ s ∈ fitShapes ∧ g = f.run [.background s] := by
    intro f g s
    rw [Fit1D.run, List.foldl_cons, List.foldl_nil, Fit1D.step, Fit1D.addBackground]
    dsimp only
    rw [buildShape]
    by_cases hs : s ∈ fitShapes
    · rw [if_pos hs]
      exact ⟨fun h => ⟨hs, (Except.ok.inj h).symm⟩, fun h => by rw [h.2]; rfl⟩
    · rw [if_neg hs]
      constructor
      · intro h
        split at h
        · cases h
        · rename_i hc; split at hc <;> cases hc
      · exact fun h => absurd h.1 hs
  have many : ∀ (l : List Str) (f g : Fit1D), l.foldlM (fun f s => orRaise (f.addBackground s)) f = .ok g ↔
      (∀ s ∈ l, s ∈ fitShapes) ∧ g = f.run (l.map .background) := by
    intro l
    induction l with
    | nil => intro f g; exact ⟨fun h => ⟨by simp, (Except.ok.inj h).symm⟩, fun h => by rw [h.2]; rfl⟩
    | cons s l ih =>
      intro f g
      rw [List.foldlM_cons, py_bind_eq_ok]
      constructor
      · rintro ⟨f', h1, h2⟩
        obtain ⟨hs, rfl⟩ := (one _ _ _).1 h1
        obtain ⟨hl, rfl⟩ := (ih _ _).1 h2
        exact ⟨List.forall_mem_cons.2 ⟨hs, hl⟩, rfl⟩
      · rintro ⟨h1, rfl⟩
        obtain ⟨hs, hl⟩ := List.forall_mem_cons.1 h1
        exact ⟨_, (one _ _ _).2 ⟨hs, rfl⟩, (ih _ _).2 ⟨hl, rfl⟩⟩
  cases arg with
  | nothing => exact ⟨fun h => ⟨[], rfl, by simp, (Except.ok.inj h).symm⟩, by rintro ⟨l, rfl, -, rfl⟩; rfl⟩
  | one s =>
    rw [ShapesArg.addAll, one]
    constructor
    · rintro ⟨h, rfl⟩; exact ⟨_, rfl, by simpa using h, rfl⟩
    · rintro ⟨l, rfl, h, rfl⟩; exact ⟨h s List.mem_cons_self, rfl⟩
  | tuple l =>
    rw [ShapesArg.addAll, many]
    constructor
    · rintro ⟨h, rfl⟩; exact ⟨_, rfl, h, rfl⟩
    · rintro ⟨l, rfl, h, rfl⟩; exact ⟨h, rfl⟩
  | list l => exact ⟨fun h => (nomatch h), by rintro ⟨l, h, -⟩; exact h.elim⟩

/-- What the constructor does, as operations. -/
def Spec.initOps (range : Option (ℝ × ℝ)) (ss bs : List Str) : List FitOp :=
  range.toList.map (fun r => .range r.1 r.2) ++ ss.map .signal ++ bs.map .background

theorem shows_table {d : ScanData1D} {rows : List Row} (h : Shows d rows) :
    (⟨d.x, d.y, some d.err⟩ : FitData) = tableOf rows := by rw [h.1, h.2.1, h.2.2]; rfl

theorem init_iff {d : ScanData1D} {rows : List Row} (h : Shows d rows) (sa ba : ShapesArg) (range : Option (ℝ × ℝ)) (f : Fit1D) :
    Fit1D.init d sa ba range = .ok f ↔ ∃ ss bs, Names sa ss ∧ Names ba bs ∧ (∀ s ∈ ss ++ bs, s ∈ fitShapes) ∧
      f = (Fit1D.mk (tableOf rows) [] [] 0 0).run (initOps range ss bs) := by
  rw [Fit1D.init, shows_table h]
  have hr : rangeGiven Fit1D.setRange (Fit1D.mk (tableOf rows) [] [] 0 0) range =
      .ok ((Fit1D.mk (tableOf rows) [] [] 0 0).run (range.toList.map fun r => .range r.1 r.2)) := by
    cases range with
    | none => rfl
    | some r =>
      show orRaise (Fit1D.setRange _ r.1 r.2) = .ok (Fit1D.setRange _ r.1 r.2).1
      rw [Fit1D.setRange]
      dsimp only
      rw [setRange_table]
      rfl
  have ha : ∀ (g : Fit1D) a b, g.run (a ++ b) = (g.run a).run b := fun g a b => by
    rw [Fit1D.run, List.foldl_append]; rfl
  rw [hr, py_bind_ok, py_bind_eq_ok]
  constructor
  · rintro ⟨g, h1, h2⟩
    obtain ⟨ss, n1, k1, rfl⟩ := (addAll_signals _ _ _).1 h1
    obtain ⟨bs, n2, k2, rfl⟩ := (addAll_backgrounds _ _ _).1 h2
    refine ⟨ss, bs, n1, n2, fun s hs => ?_, by rw [initOps, ha, ha]⟩
    rcases List.mem_append.1 hs with h | h
    · exact k1 s h
    · exact k2 s h
  · rintro ⟨ss, bs, n1, n2, k, rfl⟩
    exact ⟨_, (addAll_signals _ _ _).2 ⟨ss, n1, fun s hs => k s (List.mem_append_left _ hs), rfl⟩,
      (addAll_backgrounds _ _ _).2 ⟨bs, n2, fun s hs => k s (List.mem_append_right _ hs), by rw [initOps, ha, ha]⟩⟩

/-- **C96**: a fit of shown points can be constructed iff the signals and backgrounds asked for (nothing, one name or a tuple) all
have a model; it then has the points inside the range given, and the models of the names in order. Otherwise the constructor
raises. -/
theorem C96_init (d : ScanData1D) (rows : List Row) (h : Shows d rows) (sa ba : ShapesArg) (range : Option (ℝ × ℝ)) :
    (∀ f, Fit1D.init d sa ba range = .ok f → ∃ ss bs, Names sa ss ∧ Names ba bs ∧ FitOf rows (initOps range ss bs) f) ∧
    ((∃ f, Fit1D.init d sa ba range = .ok f) ↔ ∃ ss bs, Names sa ss ∧ Names ba bs ∧ ∀ s ∈ ss ++ bs, s ∈ fitShapes) := by
  constructor
  · intro f hf
    obtain ⟨ss, bs, n1, n2, -, rfl⟩ := (init_iff h sa ba range f).1 hf
    exact ⟨ss, bs, n1, n2, fit_of.1⟩
  · constructor
    · rintro ⟨f, hf⟩
      obtain ⟨ss, bs, n1, n2, k, -⟩ := (init_iff h sa ba range f).1 hf
      exact ⟨ss, bs, n1, n2, k⟩
    · rintro ⟨ss, bs, n1, n2, k⟩
      exact ⟨_, (init_iff h sa ba range _).2 ⟨ss, bs, n1, n2, k, rfl⟩⟩

/-! ## Histories -/

theorem acts_run (L : Lmfit) (b : Fit1D) (as : List FitAct) (o : Option FitResult) :
    ((⟨b, o⟩ : Fitting Fit1D).acts L Fit1D.step Fit1D.fitView as).base = b.run (opsOf as) :=
  acts_base L _ _ _ _

theorem init_acts (L : Lmfit) (b : Fit1D) (ops : List FitOp) (as : List FitAct) :
    (⟨b.run ops, none⟩ : Fitting Fit1D).acts L Fit1D.step Fit1D.fitView as =
      (⟨b, none⟩ : Fitting Fit1D).acts L Fit1D.step Fit1D.fitView (ops.map .op ++ as) := by
  rw [acts_append]
  congr 1
  induction ops generalizing b with
  | nil => rfl
  | cons o ops ih => exact ih (b.step o).1

/-- What a fit found: the minimiser was given these models, these parameters and these points, with their errors as weights if
they are to be used. -/
def Spec.Found (L : Lmfit) (ms : List FitComp) (rows : List Row) (pars : FitPars) (u : Bool) (r : FitResult) : Prop :=
  ∃ val, L.minimise ms [] pars (rows.map (·.val)) (rows.map (·.pos)) (if u then some (rows.map (·.err)) else none) =
      .ok (true, true, val) ∧
    r.comps = ms ∧ r.params = pars.map fun p => (p.1, val p.1)

/-- **C96**: the points a fit works on are the shown points inside all ranges given so far, to the constructor or afterwards,
whatever was added, fitted or failed in between; the result is what was found for the points and models there were at the last
fit that succeeded; and the curve drawn with the fit has its values at the points selected now. -/
theorem C96_fit (L : Lmfit) (d : ScanData1D) (rows : List Row) (h : Shows d rows) (sa ba : ShapesArg) (range : Option (ℝ × ℝ))
    (f0 : Fit1D) (hf : Fit1D.init d sa ba range = .ok f0) :
    ∃ ss bs, Names sa ss ∧ Names ba bs ∧ ∀ as : List FitAct,
      let f := (⟨f0, none⟩ : Fitting Fit1D).acts L Fit1D.step Fit1D.fitView as
      FitOf rows (initOps range ss bs ++ opsOf as) f.base ∧
      ∀ r, f.result = some r →
        (∃ before p u after, as = before ++ .fit p u :: after ∧
          Found L (modelsFor 's' (ss ++ signalsOf (opsOf before)) ++ modelsFor 'b' (bs ++ backgroundsOf (opsOf before)))
            (selected (range.toList ++ rangesOf (opsOf before)) rows) p u r) ∧
        (NamedFits as → f.curve L Fit1D.fitView none false =
          .ok (((selected (range.toList ++ rangesOf (opsOf as)) rows).map (·.pos)),
            (selected (range.toList ++ rangesOf (opsOf as)) rows).map fun q => fitTotal L r.params r.comps q.pos)) := by
  obtain ⟨ss, bs, n1, n2, -, rfl⟩ := (init_iff h sa ba range f0).1 hf
  refine ⟨ss, bs, n1, n2, fun as => ?_⟩
  have o1 : ∀ l, rangesOf (initOps range ss bs ++ l) = range.toList ++ rangesOf l := by
    intro l
    simp only [initOps, rangesOf, List.filterMap_append, List.filterMap_map]
    have : ∀ (g : Str → FitOp), (∀ s lo hi, g s ≠ .range lo hi) → ∀ l : List Str,
        l.filterMap ((fun o => match o with | .range lo hi => some (lo, hi) | _ => none) ∘ g) = ([] : List (ℝ × ℝ)) := by
      intro g hg l
      refine List.filterMap_eq_nil_iff.2 fun s _ => ?_
      show (match g s with | .range lo hi => some (lo, hi) | _ => none) = none
      split
      · rename_i lo hi e; exact absurd e (hg s lo hi)
      · rfl
    rw [this _ (by simp), this _ (by simp)]
    cases range <;> simp
  have o2 : ∀ l, signalsOf (initOps range ss bs ++ l) = ss ++ signalsOf l := by
    intro l
    cases range <;> simp [initOps, signalsOf, List.filterMap_append, List.filterMap_map]
  have o3 : ∀ l, backgroundsOf (initOps range ss bs ++ l) = bs ++ backgroundsOf l := by
    intro l
    cases range <;> simp [initOps, backgroundsOf, List.filterMap_append, List.filterMap_map]
  have hb : ∀ as, FitOf rows (initOps range ss bs ++ opsOf as)
      ((⟨(Fit1D.mk (tableOf rows) [] [] 0 0).run (initOps range ss bs), none⟩ : Fitting Fit1D).acts L Fit1D.step
        Fit1D.fitView as).base := by
    intro as
    have e := (fit_of (rows := rows) (ops := initOps range ss bs ++ opsOf as)).1
    rw [Fit1D.run, List.foldl_append] at e
    rw [acts_run]
    exact e
  intro f
  refine ⟨hb as, fun r hr => ⟨?_, fun hn => ?_⟩⟩
  · obtain ⟨before, p, u, after, he, h1, -⟩ := (C93_result L _ _ _ as r).1 hr
    obtain ⟨-, -, -, bars, val, hm, hbar, rfl⟩ := (C93_fit L _ p u r).1 h1
    obtain ⟨k1, k2, k3⟩ := hb before
    rw [o1] at k1
    rw [o2] at k2
    rw [o3] at k3
    refine ⟨before, p, u, after, he, val, ?_, ?_, rfl⟩
    · rw [hbar rfl] at hm
      rw [← hm, ← k2, ← k3]
      show _ = L.minimise _ [] p (Fit1D.data _).y (Fit1D.data _).x (if u then (Fit1D.data _).err else none)
      rw [k1]
      rfl
    · show Fit1D.signals _ ++ Fit1D.backgrounds _ = _
      rw [k2, k3]
  · have hn' : NamedFits ((initOps range ss bs).map FitAct.op ++ as) := by
      intro p u hm
      rcases List.mem_append.1 hm with hm | hm
      · obtain ⟨o, -, ho⟩ := List.mem_map.1 hm; cases ho
      · exact hn p u hm
    have hr' := hr
    have hi := init_acts L (Fit1D.mk (tableOf rows) [] [] 0 0) (initOps range ss bs) as
    have hc := C93_curve_fitted L (tableOf rows) ((initOps range ss bs).map FitAct.op ++ as) hn' none r
    dsimp only at hc
    rw [show newFit (tableOf rows) = ⟨Fit1D.mk (tableOf rows) [] [] 0 0, none⟩ from rfl, ← hi] at hc
    replace hc := hc hr
    obtain ⟨k1, -, -⟩ := hb as
    rw [o1] at k1
    rw [hc, Option.getD_none, k1]
    dsimp only
    rw [List.map_map]
    rfl

/-! ## Loaded scans -/

/-- The points of two columns of a file, with the square roots of the counts as errors. -/
noncomputable def Spec.countRows (lx ly : List ℝ) : List Row :=
  List.zipWith (fun x y => ⟨some x, some y, some √y⟩) lx ly

theorem countRows_shows {d : ScanData1D} {lx ly : List ℝ} (hl : lx.length = ly.length) (hp : ∀ c ∈ ly, 0 ≤ c)
    (hx : d.x = lx.map some) (hy : d.y = ly.map some) (he : d.err = ly.map (fun c => if c < 0 then none else some √c)) :
    Shows d (countRows lx ly) := by
  have key : ∀ (lx ly : List ℝ), lx.length = ly.length → (∀ c ∈ ly, 0 ≤ c) →
      lx.map some = (countRows lx ly).map (·.pos) ∧ ly.map some = (countRows lx ly).map (·.val) ∧
      ly.map (fun c => if c < 0 then none else some √c) = (countRows lx ly).map (·.err) := by
    intro lx
    induction lx with
    | nil => intro ly h _; obtain rfl := List.length_eq_zero_iff.1 h.symm; exact ⟨rfl, rfl, rfl⟩
    | cons x lx ih =>
      intro ly h hp
      cases ly with
      | nil => cases h
      | cons y ly =>
        obtain ⟨a, b, c⟩ := ih ly (Nat.succ.inj h) fun c hc => hp c (List.mem_cons_of_mem _ hc)
        have hy : ¬ y < 0 := not_lt.2 (hp y List.mem_cons_self)
        refine ⟨?_, ?_, ?_⟩
        · exact congrArg (some x :: ·) a
        · exact congrArg (some y :: ·) b
        · rw [List.map_cons, if_neg hy]; exact congrArg (some √y :: ·) c
  obtain ⟨a, b, c⟩ := key lx ly hl hp
  exact ⟨hx.trans a, hy.trans b, he.trans c⟩

/-- **C96**: the data of a loaded scan, handed to a fit, are the points of its file: the two columns, with the square roots of
the counts as errors; normalised, the counts per channel. -/
theorem C96_scan (iso : Str → Py Str) (xml : List Str → Option Str) (fs : FS) (dir : List Str) (file : Str) (f : SpiceFile)
    (ds : Str) (m : ℕ) (s : ScanObj) (h : Loaded iso xml fs dir file f ds (scanName m) s) (x0 y0 ch : Str) (v : ℝ)
    (hd : NormalHeader f x0 y0 ch v) (fmt : Val → Str) (xa ya : Option Str) (hu : '_' ∉ ya.getD y0) :
    (∀ lx ly, FileColumn f (xa.getD x0) lx → FileColumn f (ya.getD y0) ly → lx.length = ly.length → (∀ c ∈ ly, 0 ≤ c) →
      ∃ r, s.getData fmt xa ya none none none = .ok r ∧ Shows r.data (countRows lx ly)) ∧
    (∀ c' v' pts, v' ≠ 0 → FilePoints f (xa.getD x0) (ya.getD y0) c' pts → (∀ q ∈ pts, 0 ≤ q.y) →
      ∃ r, s.getData fmt xa ya (some (v', c')) none none = .ok r ∧
        Shows r.data (pts.map fun q => ⟨some q.x, ratio (q.y * v') q.n, ratio (√q.y * v') q.n⟩)) := by
  refine ⟨fun lx ly hx hy hl hp => ?_, fun c' v' pts hv hp hpos => ?_⟩
  · obtain ⟨r, hr, a, b, c, -⟩ := C94_shown iso xml fs dir file f ds m s h x0 y0 ch v hd fmt xa ya _ _ hx hy hu
    exact ⟨r, hr, countRows_shows hl hp a b (c.trans (List.map_map ..))⟩
  · obtain ⟨r, hr, a, b, c, -⟩ := C94_normalised iso xml fs dir file f ds m s h x0 y0 ch v hd fmt xa ya c' v' hv pts hp hpos hu
    refine ⟨r, hr, ?_, ?_, ?_⟩
    · rw [a, List.map_map]; rfl
    · rw [b, List.map_map]; rfl
    · rw [c, List.map_map]; rfl

/-! ## Fits with a resolution -/

theorem conv_of {rows : List Row} {rez : List (ℝ × ℝ)} {ops : List FitOp} :
    ((ConvFit1D.mk (tableOf rows) rez [] [] [] 0 0).run ops).data = tableOf (selected (rangesOf ops) rows) ∧
    ((ConvFit1D.mk (tableOf rows) rez [] [] [] 0 0).run ops).rez = rez := by
  induction ops using List.reverseRecOn with
  | nil =>
    classical
    refine ⟨?_, rfl⟩
    rw [show rangesOf [] = [] from rfl, selected, List.filter_eq_self.2 (fun a _ => by simp)]
    rfl
  | append_singleton ops o ih =>
    obtain ⟨h1, h2⟩ := ih
    rw [ConvFit1D.run, List.foldl_append, List.foldl_cons, List.foldl_nil]
    change ((ConvFit1D.run _ ops).step o).1.data = _ ∧ ((ConvFit1D.run _ ops).step o).1.rez = _
    generalize (ConvFit1D.mk (tableOf rows) rez [] [] [] 0 0).run ops = f at *
    cases o with
    | signal s =>
      rw [show rangesOf (ops ++ [.signal s]) = rangesOf ops by simp [rangesOf], ConvFit1D.step, ConvFit1D.addSignal]
      dsimp only
      split <;> exact ⟨h1, h2⟩
    | background s =>
      rw [show rangesOf (ops ++ [.background s]) = rangesOf ops by simp [rangesOf], ConvFit1D.step, ConvFit1D.addBackground]
      dsimp only
      split <;> exact ⟨h1, h2⟩
    | range lo hi =>
      rw [show rangesOf (ops ++ [.range lo hi]) = rangesOf ops ++ [(lo, hi)] by simp [rangesOf], ConvFit1D.step,
        ConvFit1D.setRange, selected_snoc]
      dsimp only
      refine ⟨?_, h2⟩
      rw [h1]
      exact congrArg Prod.fst (setRange_table _ lo hi)

/-- **C96**: a fit with a resolution can always be constructed, and works on the shown points inside all ranges given so far. Of
the resolution it is given all the entries, also after a range: see C58 for what that means. -/
theorem C96_conv (L : Lmfit) (d : ScanData1D) (rows : List Row) (h : Shows d rows) (rez : List (ℝ × ℝ)) (range : Option (ℝ × ℝ)) :
    ∃ f0, ConvFit1D.init d rez range = .ok f0 ∧ ∀ as : List FitAct,
      let f := (⟨f0, none⟩ : Fitting ConvFit1D).acts L ConvFit1D.step ConvFit1D.fitView as
      f.base.data = ⟨(selected (range.toList ++ rangesOf (opsOf as)) rows).map (·.pos),
        (selected (range.toList ++ rangesOf (opsOf as)) rows).map (·.val),
        some ((selected (range.toList ++ rangesOf (opsOf as)) rows).map (·.err))⟩ ∧
      ∀ r, f.result = some r → ∃ before p u after ms bars val, as = before ++ .fit p u :: after ∧
        L.minimise ms rez p ((selected (range.toList ++ rangesOf (opsOf before)) rows).map (·.val))
          ((selected (range.toList ++ rangesOf (opsOf before)) rows).map (·.pos))
          (if u then some ((selected (range.toList ++ rangesOf (opsOf before)) rows).map (·.err)) else none) =
            .ok (true, bars, val) ∧
        r.comps = ms ∧ r.params = p.map fun q => (q.1, val q.1) := by
  have hi : ConvFit1D.init d rez range =
      .ok ((ConvFit1D.mk (tableOf rows) rez [] [] [] 0 0).run (range.toList.map fun r => .range r.1 r.2)) := by
    rw [ConvFit1D.init, shows_table h]
    cases range with
    | none => rfl
    | some r =>
      show orRaise (ConvFit1D.setRange _ r.1 r.2) = .ok (ConvFit1D.setRange _ r.1 r.2).1
      rw [ConvFit1D.setRange]
      dsimp only
      rw [setRange_table]
      rfl
  refine ⟨_, hi, fun as => ?_⟩
  have hb : ∀ as, ((⟨(ConvFit1D.mk (tableOf rows) rez [] [] [] 0 0).run (range.toList.map fun r => .range r.1 r.2), none⟩ :
      Fitting ConvFit1D).acts L ConvFit1D.step ConvFit1D.fitView as).base.data =
        tableOf (selected (range.toList ++ rangesOf (opsOf as)) rows) ∧
      ((⟨(ConvFit1D.mk (tableOf rows) rez [] [] [] 0 0).run (range.toList.map fun r => .range r.1 r.2), none⟩ :
      Fitting ConvFit1D).acts L ConvFit1D.step ConvFit1D.fitView as).base.rez = rez := by
    intro as
    have e := conv_of (rows := rows) (rez := rez) (ops := (range.toList.map fun r => .range r.1 r.2) ++ opsOf as)
    rw [ConvFit1D.run, List.foldl_append] at e
    rw [acts_base]
    have : rangesOf ((range.toList.map fun r => FitOp.range r.1 r.2) ++ opsOf as) = range.toList ++ rangesOf (opsOf as) := by
      cases range <;> simp [rangesOf]
    rw [this] at e
    exact e
  intro f
  refine ⟨(hb as).1, fun r hr => ?_⟩
  obtain ⟨before, p, u, after, he, h1, -⟩ := (C93_result L _ _ _ as r).1 hr
  obtain ⟨-, -, -, bars, val, hm, -, rfl⟩ := (C93_fit L _ p u r).1 h1
  refine ⟨before, p, u, after, _, bars, val, he, ?_, rfl, rfl⟩
  rw [← hm]
  obtain ⟨k1, k2⟩ := hb before
  show _ = L.minimise _ (ConvFit1D.rez _) p (ConvFit1D.data _).y (ConvFit1D.data _).x (if u then (ConvFit1D.data _).err else none)
  rw [k1, k2]
  rfl

/-! ## Points without counts -/

/-- **C96**: the square roots of the counts are used as weights, so points without counts do not take part in a fit with error
bars: what is minimised does not depend on the model there. -/
theorem C96_zero_counts (ly m m' : List ℝ) (hm : m.length = ly.length) (hm' : m'.length = ly.length)
    (h : ∀ (i : ℕ) (c : ℝ), ly[i]? = some c → c ≠ 0 → m[i]? = m'[i]?) :
    fitObjective true (some (ly.map Real.sqrt)) ly m = fitObjective true (some (ly.map Real.sqrt)) ly m' := by
  rw [fitObjective, fitObjective, if_pos rfl, if_pos rfl, lmfitObjective, lmfitObjective]
  congr 2
  induction ly generalizing m m' with
  | nil => simp
  | cons c ly ih =>
    cases m with
    | nil => cases hm
    | cons a m =>
      cases m' with
      | nil => cases hm'
      | cons b m' =>
        simp only [List.zipWith_cons_cons, List.map_cons]
        rw [ih m m' (Nat.succ.inj hm) (Nat.succ.inj hm') fun i c hc hne => by simpa using h (i + 1) c (by simpa using hc) hne]
        congr 1
        by_cases hc : c = 0
        · rw [hc, Real.sqrt_zero, mul_zero, mul_zero]
        · have : a = b := Option.some.inj (h 0 c rfl hc)
          rw [this]

end Tavi
