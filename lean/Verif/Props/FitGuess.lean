import Verif.Props.FitCurve

/-!
# C93, continued: guesses, and the curves that are drawn
-/

namespace Tavi

/-! ## The components of a `Fit1D` -/

/-- A component as `add_signal` and `add_background` make them. -/
def madeBy (c : FitComp) : Prop := ∃ n shape, (c = .model (signalPrefix n) shape ∨ c = .model (backgroundPrefix n) shape) ∧
  shape ∈ fitShapes

theorem shape_plain {shape : Str} (h : shape ∈ fitShapes) : Spec.Plain93 shape := by
  constructor <;> rintro rfl <;> revert h <;> decide

theorem madeBy_model {c : FitComp} (h : madeBy c) : ∃ pre shape, c = .model pre shape ∧ Spec.Plain93 shape := by
  obtain ⟨n, s, h1 | h1, h2⟩ := h
  · exact ⟨_, s, h1, shape_plain h2⟩
  · exact ⟨_, s, h1, shape_plain h2⟩

theorem madeBy_underscore {pre shape : Str} (h : madeBy (.model pre shape)) : '_' ∈ pre := by
  obtain ⟨n, s, h1 | h1, -⟩ := h
  · obtain ⟨rfl, -⟩ := FitComp.model.inj h1; simp [signalPrefix]
  · obtain ⟨rfl, -⟩ := FitComp.model.inj h1; simp [backgroundPrefix]

theorem buildShape_mem {pre shape : Str} {c : FitComp} (h : buildShape pre shape = .ok c) : shape ∈ fitShapes := by
  rw [buildShape] at h
  split at h
  · assumption
  · split at h <;> cases h

theorem step_madeBy {f : Fit1D} (h : ∀ c ∈ f.signals ++ f.backgrounds, madeBy c) (o : FitOp) :
    ∀ c ∈ (f.step o).1.signals ++ (f.step o).1.backgrounds, madeBy c := by
  cases o with
  | signal s =>
    rw [Fit1D.step, Fit1D.addSignal]
    dsimp only
    cases hb : buildShape (signalPrefix (f.numSignals + 1)) s with
    | error e => exact h
    | ok c =>
      dsimp only
      intro c' hc'
      rw [List.append_assoc] at hc'
      rcases List.mem_append.1 hc' with hc' | hc'
      · exact h c' (List.mem_append_left _ hc')
      · rcases List.mem_append.1 hc' with hc' | hc'
        · rw [List.mem_singleton.1 hc', buildShape_ok hb]
          exact ⟨_, s, .inl rfl, buildShape_mem hb⟩
        · exact h c' (List.mem_append_right _ hc')
  | background s =>
    rw [Fit1D.step, Fit1D.addBackground]
    dsimp only
    cases hb : buildShape (backgroundPrefix (f.numBackgrounds + 1)) s with
    | error e => exact h
    | ok c =>
      dsimp only
      intro c' hc'
      rw [← List.append_assoc] at hc'
      rcases List.mem_append.1 hc' with hc' | hc'
      · exact h c' hc'
      · rw [List.mem_singleton.1 hc', buildShape_ok hb]
        exact ⟨_, s, .inr rfl, buildShape_mem hb⟩
  | range lo hi => exact h

theorem run_madeBy (d : FitData) (ops : List FitOp) :
    ∀ c ∈ ((Fit1D.mk d [] [] 0 0).run ops).signals ++ ((Fit1D.mk d [] [] 0 0).run ops).backgrounds, madeBy c := by
  have key : ∀ f : Fit1D, (∀ c ∈ f.signals ++ f.backgrounds, madeBy c) → ∀ c ∈ (f.run ops).signals ++ (f.run ops).backgrounds, madeBy c := by
    induction ops with
    | nil => exact fun f h => h
    | cons o ops ih => exact fun f h => ih _ (step_madeBy h o)
  exact key _ (by simp)

/-- What is known about the components of a `Fit1D` after a history. -/
structure Tidy93 (comps : List FitComp) : Prop where
  made : ∀ c ∈ comps, madeBy c
  apart : (Spec.prefixes comps).Pairwise Spec.NamesApart

theorem tidy_acts (L : Lmfit) (d : FitData) (as : List FitAct) :
    Tidy93 (((newFit d).acts L Fit1D.step Fit1D.fitView as).base.fitView).comps := by
  rw [acts_base]
  exact ⟨run_madeBy d (opsOf as), (C59_prefixes d (opsOf as)).1⟩

theorem result_tidy {L : Lmfit} {d : FitData} {as : List FitAct} {r : FitResult}
    (h : ((newFit d).acts L Fit1D.step Fit1D.fitView as).result = some r) : Tidy93 r.comps ∧ r.comps ≠ [] := by
  obtain ⟨before, p, u, after, -, h1, -⟩ := (C93_result L Fit1D.step Fit1D.fitView _ as r).1 h
  obtain ⟨h2, -, -, _, _, -, -, rfl⟩ := (C93_fit L _ p u r).1 h1
  exact ⟨tidy_acts L d before, h2⟩

/-! ## Guesses -/

/-- What `guess` should return: for every component the parameters of its shape, guessed from the selected points and named with
its prefix; and nothing else. -/
def Spec.Guessed (L : Lmfit) (d : FitData) (comps : List FitComp) (pars : FitPars) : Prop :=
  (∀ pre shape, .model pre shape ∈ comps → ∃ v, L.guess shape d.y d.x = .ok v ∧
    ∀ n ∈ L.names shape, lookupKey (pre ++ n) pars = some (v n)) ∧
  ∀ k v, lookupKey k pars = some v → ∃ pre shape n, .model pre shape ∈ comps ∧ n ∈ L.names shape ∧ k = pre ++ n

theorem mem_prefixes {pre shape : Str} {comps : List FitComp} (h : .model pre shape ∈ comps) : pre ∈ Spec.prefixes comps :=
  List.mem_filterMap.2 ⟨_, h, rfl⟩

theorem guessOne_names {L : Lmfit} {d : FitData} {pre shape : Str} {more : FitPars}
    (h : L.guessOne d (.model pre shape) = .ok more) : ∃ v, L.guess shape d.y d.x = .ok v ∧
      more = (L.names shape).map (fun n => (pre ++ n, v n)) ∧ (more.map Prod.fst).Nodup := by
  obtain ⟨v, hv, rfl⟩ := map_eq_ok.1 h
  refine ⟨v, hv, rfl, ?_⟩
  rw [List.map_map]
  exact (L.names_nodup shape).map fun a b e => List.append_cancel_left e

theorem lookup_guess {pre : Str} {names : List Str} (v : Str → ℝ) (k : Str) :
    (∀ n ∈ names, lookupKey (pre ++ n) (names.map fun n => (pre ++ n, v n)) = some (v n)) ∧
    ((∀ n, k ≠ pre ++ n) → lookupKey k (names.map fun n => (pre ++ n, v n)) = none) ∧
    (∀ x, lookupKey k (names.map fun n => (pre ++ n, v n)) = some x → ∃ n ∈ names, k = pre ++ n) := by
  refine ⟨fun n hn => ?_, fun hk => ?_, fun x hx => ?_⟩
  · induction names with
    | nil => cases hn
    | cons m names ih =>
      rw [List.map_cons, lookupKey]
      by_cases h : pre ++ m = pre ++ n
      · rw [if_pos h, List.append_cancel_left h]
      · rw [if_neg h]
        rcases List.mem_cons.1 hn with rfl | hn
        · exact absurd rfl h
        · exact ih hn
  · rw [lookupKey_eq_none, List.map_map]
    intro hm
    obtain ⟨n, -, hn⟩ := List.mem_map.1 hm
    exact hk n hn.symm
  · have := lookupKey_some_mem hx
    obtain ⟨n, hn, e⟩ := List.mem_map.1 this
    exact ⟨n, hn, (Prod.mk.inj e).1.symm⟩

theorem guessAll_inv {L : Lmfit} {d : FitData} {comps : List FitComp} (ha : (Spec.prefixes comps).Pairwise Spec.NamesApart)
    (hm : Spec.AllModels comps) {pars : FitPars} (h : L.guessAll d comps = .ok pars) :
    (pars.map Prod.fst).Nodup ∧ Spec.Guessed L d comps pars := by
  induction comps using List.reverseRecOn generalizing pars with
  | nil =>
    cases h
    exact ⟨List.nodup_nil, fun _ _ h => (nomatch h), fun _ _ h => by cases h⟩
  | append_singleton cs c ih =>
    obtain ⟨pre, shape, rfl⟩ := hm c (by simp)
    rw [Lmfit.guessAll, List.foldlM_append] at h
    obtain ⟨p0, h0, h⟩ := py_bind_eq_ok.1 h
    rw [List.foldlM_cons] at h
    obtain ⟨p1, h1, h⟩ := py_bind_eq_ok.1 h
    cases h
    obtain ⟨more, hmore, rfl⟩ := map_eq_ok.1 h1
    obtain ⟨v, hv, rfl, hnd⟩ := guessOne_names hmore
    have e : Spec.prefixes (cs ++ [.model pre shape]) = Spec.prefixes cs ++ [pre] := by
      rw [Spec.prefixes, List.filterMap_append]; rfl
    rw [e, List.pairwise_append] at ha
    obtain ⟨i1, i2, i3⟩ := ih ha.1 (fun c hc => hm c (List.mem_append_left _ hc)) h0
    refine ⟨nodup_assocUpdate _ i1, fun q s hq => ?_, fun k x hk => ?_⟩
    · rcases List.mem_append.1 hq with hq | hq
      · obtain ⟨w, hw, hl⟩ := i2 q s hq
        refine ⟨w, hw, fun n hn => ?_⟩
        rw [lookupKey_assocUpdate _ hnd,
          (lookup_guess v (q ++ n)).2.1 fun m => ha.2.2 q (mem_prefixes hq) pre List.mem_cons_self n m]
        exact hl n hn
      · obtain ⟨rfl, rfl⟩ := FitComp.model.inj (List.mem_singleton.1 hq)
        refine ⟨v, hv, fun n hn => ?_⟩
        rw [lookupKey_assocUpdate _ hnd, (lookup_guess v []).1 n hn]
        rfl
    · rw [lookupKey_assocUpdate _ hnd] at hk
      cases hl : lookupKey k ((L.names shape).map fun n => (pre ++ n, v n)) with
      | some y =>
        obtain ⟨n, hn, e⟩ := (lookup_guess v k).2.2 y hl
        exact ⟨pre, shape, n, by simp, hn, e⟩
      | none =>
        rw [hl] at hk
        obtain ⟨q, s, n, hq, hn, e⟩ := i3 k x hk
        exact ⟨q, s, n, List.mem_append_left _ hq, hn, e⟩

theorem guessAll_total {L : Lmfit} {d : FitData} {comps : List FitComp}
    (h : ∀ c ∈ comps, ∃ pre shape v, c = .model pre shape ∧ L.guess shape d.y d.x = .ok v) : ∃ pars, L.guessAll d comps = .ok pars := by
  induction comps using List.reverseRecOn with
  | nil => exact ⟨[], rfl⟩
  | append_singleton cs c ih =>
    obtain ⟨p0, h0⟩ := ih fun c hc => h c (List.mem_append_left _ hc)
    obtain ⟨pre, shape, v, rfl, hv⟩ := h c (by simp)
    refine ⟨assocUpdate p0 ((L.names shape).map fun n => (pre ++ n, v n)), ?_⟩
    rw [Lmfit.guessAll, List.foldlM_append]
    rw [Lmfit.guessAll] at h0
    rw [h0, py_bind_ok, List.foldlM_cons, Lmfit.guessOne, hv]
    rfl

theorem tidy_models {comps : List FitComp} (h : Tidy93 comps) : Spec.AllModels comps := fun c hc => by
  obtain ⟨p, s, e, -⟩ := madeBy_model (h.made c hc); exact ⟨p, s, e⟩

theorem guessed_named {L : Lmfit} {d : FitData} {comps : List FitComp} {pars : FitPars} (h : Tidy93 comps)
    (hn : (pars.map Prod.fst).Nodup) (hg : Spec.Guessed L d comps pars) : Spec.FitNamed pars := by
  refine ⟨hn, fun k hk => ?_⟩
  cases hl : lookupKey k pars with
  | none => exact absurd hk ((lookupKey_eq_none _ _).1 hl)
  | some v =>
    obtain ⟨pre, shape, n, hm, -, rfl⟩ := hg.2 k v hl
    exact List.mem_append_left _ (madeBy_underscore (h.made _ hm))

theorem guessed_complete {L : Lmfit} {d : FitData} {comps : List FitComp} {pars : FitPars} (h : Tidy93 comps)
    (hg : Spec.Guessed L d comps pars) : Spec.FitComplete L comps pars := by
  intro pre shape hm a ha
  obtain ⟨p, s, e, hs⟩ := madeBy_model (h.made _ hm)
  obtain ⟨rfl, rfl⟩ := FitComp.model.inj e
  rw [argsOf_eq L hs] at ha
  obtain ⟨v, -, hv⟩ := hg.1 pre shape hm
  exact ⟨_, hv a (L.args_names _ a ha)⟩

/-- **C93**: whatever was added before, in whatever order and with whatever failures, the guess of a fit has for every component
the guess of its own shape for the selected points, under its own prefix, and no other parameters; a guess that has been made
can be fitted: every argument is there. It fails only when the guess of some shape does. -/
theorem C93_guess (L : Lmfit) (d : FitData) (as : List FitAct) :
    let f := (newFit d).acts L Fit1D.step Fit1D.fitView as
    (∀ pars, L.guessAll f.base.data f.base.fitView.guessed = .ok pars →
      Spec.Guessed L f.base.data (f.base.signals ++ f.base.backgrounds) pars ∧
      Spec.FitComplete L (f.base.signals ++ f.base.backgrounds) pars ∧ Spec.FitNamed pars) ∧
    ((∀ pre shape, .model pre shape ∈ f.base.signals ++ f.base.backgrounds → ∃ v, L.guess shape f.base.data.y f.base.data.x = .ok v) →
      ∃ pars, L.guessAll f.base.data f.base.fitView.guessed = .ok pars) := by
  intro f
  have ht := tidy_acts L d as
  refine ⟨fun pars h => ?_, fun h => guessAll_total fun c hc => ?_⟩
  · obtain ⟨h1, h2⟩ := guessAll_inv ht.apart (tidy_models ht) h
    exact ⟨h2, guessed_complete ht h2, guessed_named ht h1 h2⟩
  · obtain ⟨p, s, rfl⟩ := tidy_models ht c hc
    obtain ⟨v, hv⟩ := h p s hc
    exact ⟨p, s, v, rfl, hv⟩

/-! ## Curves -/

/-- **C93**: before any fit has succeeded, the curve drawn is the sum of all components, each with its own guess, at the points
asked for or else at the selected points. -/
theorem C93_curve_guess (L : Lmfit) (d : FitData) (as : List FitAct) (x : Option (List Num)) (deconv : Bool) (pars : FitPars) :
    let f := (newFit d).acts L Fit1D.step Fit1D.fitView as
    f.result = none → f.base.signals ++ f.base.backgrounds ≠ [] → L.guessAll f.base.data f.base.fitView.guessed = .ok pars →
    f.curve L Fit1D.fitView x deconv = .ok (x.getD f.base.data.x,
      (x.getD f.base.data.x).map (Spec.fitTotal L pars (f.base.signals ++ f.base.backgrounds))) := by
  intro f hr hne hg
  have ht := tidy_acts L d as
  obtain ⟨-, h2, h3⟩ := (C93_guess L d as).1 pars hg
  rw [Fitting.curve, Fitting.params, hr]
  dsimp only
  rw [show L.guessAll f.base.fitView.data f.base.fitView.guessed = .ok pars from hg, py_bind_ok,
    evalSum_ok (comps := f.base.fitView.comps) L _ h3 _ hne (fun c hc => madeBy_model (ht.made c hc)) h2, py_bind_ok]
  rfl

/-- Every fit of the history was given parameters as they occur. -/
def Spec.NamedFits (as : List FitAct) : Prop := ∀ p u, .fit p u ∈ as → Spec.FitNamed p

theorem result_params {L : Lmfit} {d : FitData} {as : List FitAct} {r : FitResult} (hn : Spec.NamedFits as)
    (h : ((newFit d).acts L Fit1D.step Fit1D.fitView as).result = some r) :
    Spec.FitNamed r.params ∧ Spec.FitComplete L r.comps r.params := by
  obtain ⟨before, p, u, after, rfl, h1, -⟩ := (C93_result L Fit1D.step Fit1D.fitView _ as r).1 h
  obtain ⟨-, -, h3, _, val, -, -, rfl⟩ := (C93_fit L _ p u r).1 h1
  have hp := hn p u (by simp)
  have hk : (p.map fun q => (q.1, val q.1)).map Prod.fst = p.map Prod.fst := by rw [List.map_map]; rfl
  refine ⟨⟨by dsimp only; rw [hk]; exact hp.1, by dsimp only; rw [hk]; exact hp.2⟩, fun pre shape hm a ha => ?_⟩
  obtain ⟨v, hv⟩ := h3 pre shape hm a ha
  cases hl : lookupKey (pre ++ a) (p.map fun q => (q.1, val q.1)) with
  | some w => exact ⟨w, rfl⟩
  | none =>
    rw [lookupKey_eq_none, hk, ← lookupKey_eq_none, hv] at hl
    cases hl

/-- **C93**: once a fit has succeeded, the curve drawn is the sum of the components that were fitted, with the fitted parameters,
at the points asked for or else at the points now selected; also when components were added or fits failed afterwards. -/
theorem C93_curve_fitted (L : Lmfit) (d : FitData) (as : List FitAct) (hn : Spec.NamedFits as) (x : Option (List Num))
    (r : FitResult) :
    let f := (newFit d).acts L Fit1D.step Fit1D.fitView as
    f.result = some r →
    f.curve L Fit1D.fitView x false =
      .ok (x.getD f.base.data.x, (x.getD f.base.data.x).map (Spec.fitTotal L r.params r.comps)) := by
  intro f hr
  obtain ⟨ht, hne⟩ := result_tidy hr
  obtain ⟨h1, h2⟩ := result_params hn hr
  rw [Fitting.curve, Fitting.params, hr]
  dsimp only
  rw [if_neg (by simp), py_bind_ok, evalSum_ok L _ h1 _ hne (fun c hc => madeBy_model (ht.made c hc)) h2, py_bind_ok]
  rfl

/-- A deconvolved curve of a fit without convolution is refused once there is a result. -/
theorem C93_curve_deconv (L : Lmfit) (f : Fitting Fit1D) (x : Option (List Num)) (h : f.result ≠ none) :
    f.curve L Fit1D.fitView x true = .error .attributeError := by
  cases hr : f.result with
  | none => exact absurd hr h
  | some r => rw [Fitting.curve, hr]; rfl

/-- The sum of nothing cannot be drawn or fitted. -/
theorem C93_no_components (L : Lmfit) (f : Fitting Fit1D) (h : f.base.signals ++ f.base.backgrounds = []) (hr : f.result = none)
    (x : Option (List Num)) (b : Bool) (p : FitPars) (u : Bool) :
    f.curve L Fit1D.fitView x b = .error .attributeError ∧ f.fit L Fit1D.fitView p u = (f, some .attributeError) := by
  constructor
  · rw [Fitting.curve, Fitting.params, hr]
    dsimp only
    rw [Fit1D.fitView, h]
    rfl
  · rw [Fitting.fit, Lmfit.fit, Fit1D.fitView, h]
    rfl

/-! ## Components -/

theorem components_ok {L : Lmfit} {r : FitResult} (ht : Tidy93 r.comps) (hn : Spec.FitNamed r.params)
    (hc : Spec.FitComplete L r.comps r.params) (x : List Num) :
    ∃ cs, L.components r x = .ok cs ∧ List.Forall₂ (fun c p => ∃ shape, c = FitComp.model p.1 shape ∧
      p.2 = x.map fun t => Spec.fitValue L r.params t c) r.comps cs := by
  have hl : ∃ l, r.comps.mapM (L.component r x) = .ok l ∧ List.Forall₂ (fun c p => ∃ shape, c = FitComp.model p.1 shape ∧
      p.2 = x.map fun t => Spec.fitValue L r.params t c) r.comps l ∧ l.map Prod.fst = Spec.prefixes r.comps := by
    have hmade := ht.made
    revert hc hmade
    generalize r.comps = comps
    intro hc hmade
    clear ht
    induction comps with
    | nil => exact ⟨[], rfl, .nil, rfl⟩
    | cons c comps ih =>
      obtain ⟨l, h1, h2, h3⟩ := ih (fun p s h => hc p s (List.mem_cons_of_mem _ h)) fun c h => hmade c (List.mem_cons_of_mem _ h)
      obtain ⟨pre, shape, rfl, hs⟩ := madeBy_model (hmade c List.mem_cons_self)
      have he := evalOne_ok L r.rez hn x (pre := pre) hs fun a ha => hc pre shape List.mem_cons_self a (by rw [argsOf_eq L hs]; exact ha)
      refine ⟨(pre, x.map fun t => Spec.fitValue L r.params t (.model pre shape)) :: l, ?_, .cons ⟨shape, rfl, rfl⟩ h2, ?_⟩
      · rw [List.mapM_cons, h1, Lmfit.component, he]; rfl
      · rw [List.map_cons, h3]; rfl
  obtain ⟨l, h1, h2, h3⟩ := hl
  have hnd : (l.map Prod.fst).Nodup := by
    rw [h3]; exact ht.apart.imp fun {a b} h e => h [] [] (by rw [e])
  have hself : ∀ (l d : List (Str × List Num)), ((d ++ l).map Prod.fst).Nodup → assocUpdate d l = d ++ l := by
    intro l
    induction l with
    | nil => intro d _; rw [List.append_nil]; rfl
    | cons p l ih =>
      intro d hd
      rw [assocUpdate, List.foldl_cons]
      have hset : ∀ (d : List (Str × List Num)), p.1 ∉ d.map Prod.fst → assocSet d p.1 p.2 = d ++ [p] := by
        intro d
        induction d with
        | nil => intro _; rfl
        | cons q d ihd =>
          intro hq
          rw [List.map_cons, List.mem_cons, not_or] at hq
          obtain ⟨k, v⟩ := q
          rw [assocSet, if_neg (fun e => hq.1 e.symm), ihd hq.2]; rfl
      have hp : p.1 ∉ d.map Prod.fst := by
        intro hm
        rw [List.map_append, List.map_cons] at hd
        exact List.disjoint_of_nodup_append hd hm List.mem_cons_self
      rw [hset d hp]
      show assocUpdate (d ++ [p]) l = _
      rw [ih (d ++ [p]) (by rw [List.append_assoc]; exact hd), List.append_assoc]; rfl
  refine ⟨l, ?_, h2⟩
  rw [Lmfit.components, h1, py_bind_ok, hself l [] hnd, List.nil_append]

/-- What `add_fit_components` should add for component number `i`: the values of the component at the points, labelled with the
prefix without the underscore; every keyword has the `i`-th of its values. -/
def Spec.ComponentCurve (L : Lmfit) (r : FitResult) (x : List Num) (kw : List (Str × List Str)) (i : ℕ) (c : FitComp)
    (q : PlotFit) : Prop :=
  q.x = x ∧ q.y = x.map (fun t => Spec.fitValue L r.params t c) ∧
  (∀ k vals, (k, vals) ∈ kw → ∃ v, vals[i]? = some v ∧ lookupKey k q.fmt = some v) ∧
  ("label".toList ∉ kw.map Prod.fst → ∃ pre shape s, c = .model pre shape ∧ pre = s ++ ['_'] ∧ lookupKey "label".toList q.fmt = some s) ∧
  ∀ k, k ∉ kw.map Prod.fst → k ≠ "label".toList → lookupKey k q.fmt = none

theorem lookup_kw {kw : List (Str × List Str)} (hk : (kw.map Prod.fst).Nodup) {k : Str} {vals : List Str} (h : (k, vals) ∈ kw)
    (g : List Str → Str) : lookupKey k (kw.map fun q => (q.1, g q.2)) = some (g vals) := by
  have hnd : ((kw.map fun q => (q.1, g q.2)).map Prod.fst).Nodup := by rw [List.map_map]; exact hk
  rw [lookupKey_mem hnd]
  exact List.mem_map.2 ⟨_, h, rfl⟩

theorem made_label {c : FitComp} (h : madeBy c) : ∃ s shape, c = .model (s ++ ['_']) shape := by
  obtain ⟨n, sh, h1 | h1, -⟩ := h
  · exact ⟨'s' :: decStr n, sh, h1⟩
  · exact ⟨'b' :: decStr n, sh, h1⟩

/-- **C93**: drawing the components of a fit adds one curve for every component that was fitted, in the order signals, backgrounds,
each with its values and its format; if a keyword does not have as many values as there are components nothing is added and a
`ValueError` is raised. -/
theorem C93_components (L : Lmfit) (d : FitData) (as : List FitAct) (hn : Spec.NamedFits as) (x : Option (List Num))
    (kw : List (Str × List Str)) (hk : (kw.map Prod.fst).Nodup) (r : FitResult) :
    let f := (newFit d).acts L Fit1D.step Fit1D.fitView as
    f.result = some r →
    ((∀ k vals, (k, vals) ∈ kw → vals.length = r.comps.length) → ∃ qs, f.componentCurves L Fit1D.fitView x kw = .ok qs ∧
      qs.length = r.comps.length ∧ ∀ i c q, r.comps[i]? = some c → qs[i]? = some q →
        Spec.ComponentCurve L r (x.getD f.base.data.x) kw i c q) ∧
    ((∃ k vals, (k, vals) ∈ kw ∧ vals.length ≠ r.comps.length) → f.componentCurves L Fit1D.fitView x kw = .error .valueError) := by
  intro f hr
  obtain ⟨ht, hne⟩ := result_tidy hr
  obtain ⟨h1, h2⟩ := result_params hn hr
  obtain ⟨cs, hcs, hall⟩ := components_ok ht h1 h2 (x.getD f.base.data.x)
  have hlen := hall.length_eq
  have hstart : f.componentCurves L Fit1D.fitView x kw = if kw.all fun k => k.2.length = cs.length then
      .ok (cs.zipIdx.map fun c => ⟨x.getD f.base.data.x, c.1.2,
        assocUpdate (assocSet [] "label".toList c.1.1.dropLast) (kw.map fun k => (k.1, k.2.getD c.2 []))⟩)
    else .error .valueError := by
    rw [Fitting.componentCurves, hr]
    dsimp only
    rw [show L.components r (x.getD (Fit1D.fitView f.base).data.x) = .ok cs from hcs, py_bind_ok]
    rfl
  rw [hstart]
  constructor
  · intro hl
    rw [if_pos (List.all_eq_true.2 fun p hp => by rw [decide_eq_true_iff, ← hlen]; exact hl p.1 p.2 hp)]
    refine ⟨_, rfl, by rw [List.length_map, List.length_zipIdx, hlen], fun i c q hc hq => ?_⟩
    rw [List.getElem?_map, List.getElem?_zipIdx] at hq
    obtain ⟨p, hp, rfl⟩ := Option.map_eq_some_iff.1 hq
    obtain ⟨p', hp', rfl⟩ := Option.map_eq_some_iff.1 hp
    obtain ⟨hi, hci⟩ := List.getElem?_eq_some_iff.1 hc
    obtain ⟨hi', hpi⟩ := List.getElem?_eq_some_iff.1 hp'
    have hrel := (List.forall₂_iff_get.1 hall).2 i hi hi'
    simp only [List.get_eq_getElem, hci, hpi] at hrel
    obtain ⟨shape, rfl, hy⟩ := hrel
    have hnd : ((kw.map fun k => (k.1, k.2.getD (0 + i) [])).map Prod.fst).Nodup := by rw [List.map_map]; exact hk
    refine ⟨rfl, hy, fun k vals hkv => ?_, fun hlab => ?_, fun k hk1 hk2 => ?_⟩
    · have hv : i < vals.length := by rw [hl k vals hkv]; exact hi
      refine ⟨vals[i], List.getElem?_eq_getElem hv, ?_⟩
      rw [lookupKey_assocUpdate _ hnd, lookup_kw hk hkv fun l => l.getD (0 + i) []]
      simp [List.getD_eq_getElem?_getD, hv]
    · obtain ⟨s, shape', e⟩ := made_label (ht.made _ (List.mem_of_getElem? hc))
      obtain ⟨e1, -⟩ := FitComp.model.inj e
      refine ⟨p'.1, shape, s, rfl, e1, ?_⟩
      rw [lookupKey_assocUpdate _ hnd, (lookupKey_eq_none _ _).2 (by rw [List.map_map]; exact hlab), lookupKey_assocSet, if_pos rfl, e1]
      simp
    · rw [lookupKey_assocUpdate _ hnd, (lookupKey_eq_none _ _).2 (by rw [List.map_map]; exact hk1), lookupKey_assocSet, if_neg hk2]
      rfl
  · rintro ⟨k, vals, hkv, hv⟩
    rw [if_neg]
    intro h
    have := List.all_eq_true.1 h _ hkv
    rw [decide_eq_true_iff] at this
    exact hv (this.trans hlen.symm)

/-- **C93**: the curves of the components add up to the curve of the fit. -/
theorem C93_components_sum (L : Lmfit) (d : FitData) (as : List FitAct) (hn : Spec.NamedFits as) (x : Option (List Num))
    (r : FitResult) (qs : List PlotFit) (y : List Num) (xs : List Num) :
    let f := (newFit d).acts L Fit1D.step Fit1D.fitView as
    f.result = some r → f.componentCurves L Fit1D.fitView x [] = .ok qs → f.curve L Fit1D.fitView x false = .ok (xs, y) →
    ∀ (i : ℕ) (v : Num), y[i]? = some v → (qs.map fun q => (q.y[i]?).getD none).foldr nadd (some 0) = v := by
  intro f hr hq hy i v hv
  obtain ⟨ht, hne⟩ := result_tidy hr
  obtain ⟨qs', h1, h2, h3⟩ := (C93_components L d as hn x [] List.nodup_nil r hr).1 fun k vals h => (nomatch h)
  obtain rfl := Except.ok.inj (h1.symm.trans hq)
  have hc := C93_curve_fitted L d as hn x r hr
  obtain ⟨rfl, rfl⟩ := Prod.mk.inj (Except.ok.inj (hc.symm.trans hy))
  rw [List.getElem?_map] at hv
  obtain ⟨t, hti, rfl⟩ := Option.map_eq_some_iff.1 hv
  rw [Spec.fitTotal]
  congr 1
  refine List.ext_getElem? fun j => ?_
  rw [List.getElem?_map, List.getElem?_map]
  by_cases hj : j < r.comps.length
  · obtain ⟨-, hqy, -⟩ := h3 j _ _ (List.getElem?_eq_getElem hj) (List.getElem?_eq_getElem (by rw [h2]; exact hj))
    rw [List.getElem?_eq_getElem hj, List.getElem?_eq_getElem (by rw [h2]; exact hj)]
    simp only [Option.map_some]
    rw [hqy, List.getElem?_map, hti]
    rfl
  · rw [List.getElem?_eq_none (by omega), List.getElem?_eq_none (by omega)]
    rfl

/-- Without a result nothing is added. -/
theorem C93_components_none {F : Type} (L : Lmfit) (view : F → FitView) (f : Fitting F) (h : f.result = none) (x : Option (List Num))
    (kw : List (Str × List Str)) : f.componentCurves L view x kw = .ok [] := by
  rw [Fitting.componentCurves, h]

end Tavi
