import Verif.Props.FitBar

/-!
# C93, continued: fits with a resolution (`ConvFit1D`)
-/

namespace Tavi

/-- What is known about the components of a `ConvFit1D` after a history. -/
structure ConvTidy (f : ConvFit1D) : Prop where
  signals : ∀ pre shape, .model pre shape ∈ f.signals → shape = "conv_gaussian".toList ∧ ∃ n, pre = signalPrefix n
  backgrounds : ∀ pre shape, .model pre shape ∈ f.backgrounds → shape = "conv_constant".toList ∧ ∃ n, pre = backgroundPrefix n
  intrinsic : f.signalsIntrinsic = (Spec.prefixes f.signals).map fun p => .model p "Gaussian".toList

theorem conv_step {f : ConvFit1D} (h : ConvTidy f) (o : FitOp) : ConvTidy (f.step o).1 := by
  obtain ⟨h1, h2, h3⟩ := h
  cases o with
  | signal s =>
    rw [ConvFit1D.step, ConvFit1D.addSignal]
    dsimp only
    split
    · refine ⟨fun p sh hm => ?_, h2, ?_⟩
      · rcases List.mem_append.1 hm with hm | hm
        · exact h1 p sh hm
        · obtain ⟨rfl, rfl⟩ := FitComp.model.inj (List.mem_singleton.1 hm)
          exact ⟨rfl, _, rfl⟩
      · dsimp only
        rw [h3, Spec.prefixes, Spec.prefixes, List.filterMap_append, List.map_append]
        rfl
    · refine ⟨fun p sh hm => ?_, h2, ?_⟩
      · rcases List.mem_append.1 hm with hm | hm
        · exact h1 p sh hm
        · exact absurd (List.mem_singleton.1 hm) (by simp)
      · dsimp only
        rw [h3, Spec.prefixes, Spec.prefixes, List.filterMap_append, List.map_append]
        simp
  | background s =>
    rw [ConvFit1D.step, ConvFit1D.addBackground]
    dsimp only
    split
    · refine ⟨h1, fun p sh hm => ?_, h3⟩
      rcases List.mem_append.1 hm with hm | hm
      · exact h2 p sh hm
      · obtain ⟨rfl, rfl⟩ := FitComp.model.inj (List.mem_singleton.1 hm)
        exact ⟨rfl, _, rfl⟩
    · refine ⟨h1, fun p sh hm => ?_, h3⟩
      rcases List.mem_append.1 hm with hm | hm
      · exact h2 p sh hm
      · exact absurd (List.mem_singleton.1 hm) (by simp)
  | range lo hi => exact ⟨h1, h2, h3⟩

theorem conv_tidy (L : Lmfit) (d : FitData) (rez : List (ℝ × ℝ)) (as : List FitAct) :
    ConvTidy ((newConvFit d rez).acts L ConvFit1D.step ConvFit1D.fitView as).base ∧
    (Spec.prefixes (((newConvFit d rez).acts L ConvFit1D.step ConvFit1D.fitView as).base.signals ++
      ((newConvFit d rez).acts L ConvFit1D.step ConvFit1D.fitView as).base.backgrounds)).Pairwise Spec.NamesApart := by
  rw [acts_base]
  refine ⟨?_, (C59_conv_prefixes d rez (opsOf as)).1⟩
  have key : ∀ (ops : List FitOp) (f : ConvFit1D), ConvTidy f → ConvTidy (ops.foldl (fun f o => (f.step o).1) f) := by
    intro ops
    induction ops with
    | nil => exact fun f h => h
    | cons o ops ih => exact fun f h => ih _ (conv_step h o)
  exact key _ _ ⟨fun _ _ h => (nomatch h), fun _ _ h => (nomatch h), rfl⟩

theorem mem_prefixes_iff {pre : Str} {comps : List FitComp} (h : pre ∈ Spec.prefixes comps) : ∃ shape, .model pre shape ∈ comps := by
  obtain ⟨c, hc, e⟩ := List.mem_filterMap.1 h
  cases c with
  | text s => cases e
  | model p s => cases e; exact ⟨s, hc⟩

theorem conv_rez (L : Lmfit) (d : FitData) (rez : List (ℝ × ℝ)) (as : List FitAct) :
    ((newConvFit d rez).acts L ConvFit1D.step ConvFit1D.fitView as).base.rez = rez := by
  rw [acts_base]
  have key : ∀ (ops : List FitOp) (f : ConvFit1D), (ops.foldl (fun f o => (f.step o).1) f).rez = f.rez := by
    intro ops
    induction ops with
    | nil => exact fun f => rfl
    | cons o ops ih =>
      intro f
      rw [List.foldl_cons, ih]
      cases o with
      | signal s => rw [ConvFit1D.step, ConvFit1D.addSignal]; dsimp only; split <;> rfl
      | background s => rw [ConvFit1D.step, ConvFit1D.addBackground]; dsimp only; split <;> rfl
      | range lo hi => rfl
  exact key _ _

theorem prefixes_gauss (l : List Str) (s : Str) : Spec.prefixes (l.map fun p => .model p s) = l := by
  induction l with
  | nil => rfl
  | cons a l ih => rw [List.map_cons, Spec.prefixes, List.filterMap_cons]; exact congrArg (a :: ·) ih

/-- What `guess` of a `ConvFit1D` returns: the parameters of the signals. -/
theorem conv_guessed {L : Lmfit} {d : FitData} {rez : List (ℝ × ℝ)} {as : List FitAct} {pars : FitPars}
    (h : let f := (newConvFit d rez).acts L ConvFit1D.step ConvFit1D.fitView as
      L.guessAll f.base.data f.base.fitView.guessed = .ok pars) :
    let f := (newConvFit d rez).acts L ConvFit1D.step ConvFit1D.fitView as
    Spec.Guessed L f.base.data ((Spec.prefixes f.base.signals).map fun p => .model p "Gaussian".toList) pars ∧
    Spec.FitNamed pars := by
  intro f
  obtain ⟨ht, ha⟩ := conv_tidy L d rez as
  have e : f.base.fitView.guessed = (Spec.prefixes f.base.signals).map fun p => .model p "Gaussian".toList := by
    show f.base.signalsIntrinsic ++ [] = _
    rw [List.append_nil, ht.intrinsic]
  have h : L.guessAll f.base.data f.base.fitView.guessed = .ok pars := h
  rw [e] at h
  have ha' : (Spec.prefixes f.base.signals).Pairwise Spec.NamesApart := by
    rw [Spec.prefixes, List.filterMap_append] at ha
    exact (List.pairwise_append.1 ha).1
  obtain ⟨h1, h2⟩ := guessAll_inv (by rw [prefixes_gauss]; exact ha') (fun c hc => by
    obtain ⟨p, -, rfl⟩ := List.mem_map.1 hc; exact ⟨_, _, rfl⟩) h
  refine ⟨h2, h1, fun k hk => ?_⟩
  cases hl : lookupKey k pars with
  | none => exact absurd hk ((lookupKey_eq_none _ _).1 hl)
  | some v =>
    obtain ⟨pre, shape, n, hm, -, rfl⟩ := h2.2 k v hl
    obtain ⟨p, hp, e⟩ := List.mem_map.1 hm
    obtain ⟨rfl, rfl⟩ := FitComp.model.inj e
    obtain ⟨sh, hp⟩ := mem_prefixes_iff hp
    obtain ⟨-, m, rfl⟩ := ht.signals _ _ hp
    simp [signalPrefix]

/-- **C93** for fits with a resolution, the code disagrees: once a background has been added, the guess lacks its parameter. Fitting
from the guess is refused, and before a fit no curve can be drawn. -/
theorem C93_conv_background (L : Lmfit) (d : FitData) (rez : List (ℝ × ℝ)) (as : List FitAct) (pars : FitPars) (pre shape : Str) :
    let f := (newConvFit d rez).acts L ConvFit1D.step ConvFit1D.fitView as
    .model pre shape ∈ f.base.backgrounds → L.guessAll f.base.data f.base.fitView.guessed = .ok pars →
    lookupKey (pre ++ "c".toList) pars = none ∧
    (∀ u, ∃ e, f.fit L ConvFit1D.fitView pars u = (f, some e)) ∧
    (f.result = none → ∀ x b, ∃ e, f.curve L ConvFit1D.fitView x b = .error e) := by
  intro f hm hg
  obtain ⟨ht, ha⟩ := conv_tidy L d rez as
  obtain ⟨h1, h2⟩ := conv_guessed hg
  obtain ⟨rfl, n, rfl⟩ := ht.backgrounds _ _ hm
  have hnone : lookupKey (backgroundPrefix n ++ "c".toList) pars = none := by
    cases hl : lookupKey (backgroundPrefix n ++ "c".toList) pars with
    | none => rfl
    | some v =>
      obtain ⟨p, s, m, hpm, -, e⟩ := h1.2 _ v hl
      obtain ⟨p', hp', e'⟩ := List.mem_map.1 hpm
      obtain ⟨rfl, rfl⟩ := FitComp.model.inj e'
      obtain ⟨sh, hp'⟩ := mem_prefixes_iff hp'
      obtain ⟨-, k, rfl⟩ := ht.signals _ _ hp'
      exact absurd e.symm (mixed_apart k n _ _)
  have harg : "c".toList ∈ L.argsOf "conv_constant".toList := by
    rw [Lmfit.argsOf, if_neg (by decide), if_pos rfl]; exact List.mem_cons_self
  have hmem : .model (backgroundPrefix n) "conv_constant".toList ∈ f.base.fitView.comps := List.mem_append_right _ hm
  refine ⟨hnone, fun u => ?_, fun hr x b => ?_⟩
  · rw [Fitting.fit]
    cases hf : L.fit f.base.fitView pars u with
    | error e => exact ⟨e, rfl⟩
    | ok r =>
      obtain ⟨-, -, hc, -⟩ := (C93_fit L _ pars u r).1 hf
      obtain ⟨v, hv⟩ := hc _ _ hmem _ harg
      rw [hnone] at hv; cases hv
  · cases hcv : f.curve L ConvFit1D.fitView x b with
    | error e => exact ⟨e, rfl⟩
    | ok y =>
      exfalso
      rw [Fitting.curve, Fitting.params, hr] at hcv
      dsimp only at hcv
      rw [show L.guessAll (ConvFit1D.fitView f.base).data (ConvFit1D.fitView f.base).guessed = .ok pars from hg, py_bind_ok] at hcv
      obtain ⟨ys, hys, -⟩ := py_bind_eq_ok.1 hcv
      rw [Lmfit.evalSum] at hys
      obtain ⟨cs, hcs, hys⟩ := py_bind_eq_ok.1 hys
      obtain ⟨rfl, -, -⟩ := composite_inv hcs
      obtain ⟨zs, hzs, -⟩ := py_bind_eq_ok.1 hys
      have hall := mapM_ok_inv hzs
      obtain ⟨i, hi, hget⟩ := List.getElem_of_mem hmem
      have hrel := (List.forall₂_iff_get.1 hall).2 i hi (by rw [← hall.length_eq]; exact hi)
      simp only [List.get_eq_getElem, hget] at hrel
      rw [evalOne_missing L _ h2 _ harg hnone] at hrel
      cases hrel

/-- **C93** (partial) for fits with a resolution: without a background the guess has every argument of every signal (a Gaussian
having the three arguments it has in lmfit). Missing: backgrounds, see `C93_conv_background`. -/
theorem C93_conv_guess_partial (L : Lmfit) (d : FitData) (rez : List (ℝ × ℝ)) (as : List FitAct) (pars : FitPars)
    (hL : ∀ a ∈ ["amplitude".toList, "center".toList, "sigma".toList], a ∈ L.args "Gaussian".toList) :
    let f := (newConvFit d rez).acts L ConvFit1D.step ConvFit1D.fitView as
    f.base.backgrounds = [] → L.guessAll f.base.data f.base.fitView.guessed = .ok pars →
    Spec.FitComplete L f.base.fitView.comps pars ∧ Spec.FitNamed pars := by
  intro f hb hg
  obtain ⟨ht, ha⟩ := conv_tidy L d rez as
  obtain ⟨h1, h2⟩ := conv_guessed hg
  refine ⟨fun p s hm a haa => ?_, h2⟩
  have hm : .model p s ∈ f.base.signals := by
    rcases List.mem_append.1 hm with h | h
    · exact h
    · rw [hb] at h; cases h
  obtain ⟨rfl, -⟩ := ht.signals _ _ hm
  rw [Lmfit.argsOf, if_pos rfl] at haa
  obtain ⟨v, -, hv⟩ := h1.1 p "Gaussian".toList (List.mem_map.2 ⟨p, mem_prefixes hm, rfl⟩)
  exact ⟨_, hv a (L.args_names _ a (hL a haa))⟩

/-! ## Fitted curves -/

/-- The value of a convolved component at a point with its resolution. -/
noncomputable def Spec.convValue (pars : FitPars) (x : Num) (w : ℝ × ℝ) : FitComp → Num
  | .text _ => none
  | .model pre shape =>
    if shape = "conv_gaussian".toList then
      if (lookupKey (pre ++ "sigma".toList) pars).getD 0 = 0 then none
      else convPoint (fun t => gaussian t ((lookupKey (pre ++ "amplitude".toList) pars).getD 0)
        ((lookupKey (pre ++ "center".toList) pars).getD 0) ((lookupKey (pre ++ "sigma".toList) pars).getD 0)) x w
    else convPoint (constantSignal ((lookupKey (pre ++ "c".toList) pars).getD 0)) x w

theorem map_none_zip (x : List Num) (rez : List (ℝ × ℝ)) (h : x.length ≤ rez.length) :
    x.map (fun _ => (none : Num)) = List.zipWith (fun _ _ => none) x rez := by
  induction x generalizing rez with
  | nil => rfl
  | cons a x ih =>
    cases rez with
    | nil => simp at h
    | cons w rez => rw [List.map_cons, List.zipWith_cons_cons, ih rez (by simpa using h)]

theorem evalOne_conv (L : Lmfit) (rez : List (ℝ × ℝ)) {pars : FitPars} (h : Spec.FitNamed pars) (x : List Num) {pre shape : Str}
    (hs : shape = "conv_gaussian".toList ∨ shape = "conv_constant".toList)
    (hc : ∀ a ∈ L.argsOf shape, ∃ v, lookupKey (pre ++ a) pars = some v) :
    L.evalOne rez pars x (.model pre shape) = if x.length ≤ rez.length then
      .ok (List.zipWith (fun t w => Spec.convValue pars t w (.model pre shape)) x rez) else .error .indexError := by
  rw [Lmfit.evalOne, if_pos]
  · rcases hs with rfl | rfl
    · have e : ∀ a ∈ ["amplitude".toList, "center".toList, "sigma".toList], argValue pre pars a = lookupKey (pre ++ a) pars := by
        intro a ha
        refine argValue_eq h ?_
        simp only [List.mem_cons, List.not_mem_nil, or_false] at ha
        rcases ha with rfl | rfl | rfl <;> decide
      rw [Lmfit.values, if_pos rfl, e _ (by simp), e _ (by simp), e _ (by simp)]
      by_cases h0 : (lookupKey (pre ++ "sigma".toList) pars).getD 0 = 0
      · rw [if_pos h0]
        split
        · rename_i hl
          congr 1
          rw [map_none_zip x rez hl]
          congr 1
          funext t w
          rw [Spec.convValue, if_pos rfl, if_pos h0]
        · rfl
      · rw [if_neg h0, conv1d]
        split
        · congr 2
          funext t w
          rw [Spec.convValue, if_pos rfl, if_neg h0]
        · rfl
    · rw [Lmfit.values, if_neg (by decide), if_pos rfl, argValue_eq h (by decide), conv1d]
      split
      · congr 2
      · rfl
  · rw [List.all_eq_true]
    intro a ha
    obtain ⟨v, hv⟩ := hc a ha
    rw [argValue_eq h (argsOf_plain L shape a ha), hv]; rfl

theorem addCurves_zip {α : Type} (x : List Num) (rez : List (ℝ × ℝ)) (g : α → Num → ℝ × ℝ → Num) (l : List α) (hne : l ≠ []) :
    addCurves (l.map fun c => List.zipWith (g c) x rez) =
      List.zipWith (fun t w => (l.map fun c => g c t w).foldr nadd (some 0)) x rez := by
  induction l with
  | nil => exact absurd rfl hne
  | cons c l ih =>
    cases l with
    | nil =>
      show List.zipWith (g c) x rez = _
      congr 1
      funext t w
      exact (nadd_zero _).symm
    | cons d l =>
      rw [List.map_cons]
      show List.zipWith nadd _ (addCurves ((d :: l).map fun c => List.zipWith (g c) x rez)) = _
      rw [ih (by simp)]
      clear ih hne
      induction x generalizing rez with
      | nil => rfl
      | cons a x ihx =>
        cases rez with
        | nil => rfl
        | cons w rez =>
          rw [List.zipWith_cons_cons, List.zipWith_cons_cons, List.zipWith_cons_cons, List.zipWith_cons_cons, ihx]
          rfl

theorem conv_result {L : Lmfit} {d : FitData} {rez : List (ℝ × ℝ)} {as : List FitAct} {r : FitResult} (hn : Spec.NamedFits as)
    (h : ((newConvFit d rez).acts L ConvFit1D.step ConvFit1D.fitView as).result = some r) :
    r.comps ≠ [] ∧ r.rez = rez ∧ Spec.FitNamed r.params ∧ Spec.FitComplete L r.comps r.params ∧
    ∀ c ∈ r.comps, ∃ pre shape, c = .model pre shape ∧ (shape = "conv_gaussian".toList ∨ shape = "conv_constant".toList) := by
  obtain ⟨before, p, u, after, rfl, h1, -⟩ := (C93_result L ConvFit1D.step ConvFit1D.fitView _ as r).1 h
  obtain ⟨hne, hm, h3, _, val, -, -, rfl⟩ := (C93_fit L _ p u r).1 h1
  obtain ⟨ht, -⟩ := conv_tidy L d rez before
  have hp := hn p u (by simp)
  have hk : (p.map fun q => (q.1, val q.1)).map Prod.fst = p.map Prod.fst := by rw [List.map_map]; rfl
  refine ⟨hne, conv_rez L d rez before, ⟨by dsimp only; rw [hk]; exact hp.1, by dsimp only; rw [hk]; exact hp.2⟩,
    fun pre shape hm a ha => ?_, fun c hc => ?_⟩
  · obtain ⟨v, hv⟩ := h3 pre shape hm a ha
    cases hl : lookupKey (pre ++ a) (p.map fun q => (q.1, val q.1)) with
    | some w => exact ⟨w, rfl⟩
    | none =>
      rw [lookupKey_eq_none, hk, ← lookupKey_eq_none, hv] at hl
      cases hl
  · obtain ⟨pre, shape, rfl⟩ := hm c hc
    refine ⟨pre, shape, rfl, ?_⟩
    rcases List.mem_append.1 hc with hc | hc
    · exact .inl (ht.signals _ _ hc).1
    · exact .inr (ht.backgrounds _ _ hc).1

/-- **C93** for fits with a resolution: the curve of a fit is the sum of the fitted components, each convolved with the resolution
of the point, where the resolution is found by the position of the point. With more points than resolutions there is an
`IndexError`. -/
theorem C93_conv_curve (L : Lmfit) (d : FitData) (rez : List (ℝ × ℝ)) (as : List FitAct) (hn : Spec.NamedFits as)
    (x : Option (List Num)) (r : FitResult) :
    let f := (newConvFit d rez).acts L ConvFit1D.step ConvFit1D.fitView as
    f.result = some r →
    ((x.getD f.base.data.x).length ≤ rez.length → f.curve L ConvFit1D.fitView x false = .ok (x.getD f.base.data.x,
      List.zipWith (fun t w => (r.comps.map (Spec.convValue r.params t w)).foldr nadd (some 0)) (x.getD f.base.data.x) rez)) ∧
    (rez.length < (x.getD f.base.data.x).length → f.curve L ConvFit1D.fitView x false = .error .indexError) := by
  intro f hr
  obtain ⟨hne, hrez, h1, h2, h3⟩ := conv_result hn hr
  have hmod : Spec.AllModels r.comps := fun c hc => by obtain ⟨p, s, e, -⟩ := h3 c hc; exact ⟨p, s, e⟩
  have hone : ∀ c ∈ r.comps, ∀ y : List Num, L.evalOne rez r.params y c = if y.length ≤ rez.length then
      .ok (List.zipWith (fun t w => Spec.convValue r.params t w c) y rez) else .error .indexError := by
    intro c hc y
    obtain ⟨p, s, rfl, hs⟩ := h3 c hc
    exact evalOne_conv L rez h1 y hs fun a ha => h2 p s hc a ha
  have hstart : f.curve L ConvFit1D.fitView x false =
      (r.comps.mapM (L.evalOne rez r.params (x.getD f.base.data.x)) >>= fun ys => .ok (addCurves ys)) >>= fun y =>
        .ok (x.getD f.base.data.x, y) := by
    rw [Fitting.curve, Fitting.params, hr]
    dsimp only
    rw [if_neg (by simp), py_bind_ok, Lmfit.evalSum, composite_ok hne hmod, py_bind_ok, hrez]
    rfl
  rw [hstart]
  constructor
  · intro hl
    rw [mapM_ok (g := fun c => List.zipWith (fun t w => Spec.convValue r.params t w c) (x.getD f.base.data.x) rez)
      fun c hc => by rw [hone c hc, if_pos hl], py_bind_ok, py_bind_ok, addCurves_zip _ _ _ _ hne]
  · intro hl
    obtain ⟨c, cs, hcs⟩ := List.exists_cons_of_ne_nil hne
    rw [hcs, List.mapM_cons, hone c (by rw [hcs]; exact List.mem_cons_self), if_neg (by omega)]
    rfl

/-- **C93** for fits with a resolution: a resolution bar cannot be put at such a fit. -/
theorem C93_conv_bar (L : Lmfit) (d : FitData) (rez : List (ℝ × ℝ)) (as : List FitAct) (hn : Spec.NamedFits as) (r : FitResult)
    (hr : ((newConvFit d rez).acts L ConvFit1D.step ConvFit1D.fitView as).result = some r) : ∃ e, L.barPos r = .error e := by
  obtain ⟨hne, -, -, -, h3⟩ := conv_result hn hr
  rw [Lmfit.barPos]
  cases hx : lookupKey "s1_center".toList r.params with
  | none => exact ⟨_, rfl⟩
  | some xc =>
    rw [need_some, py_bind_ok]
    obtain ⟨c, cs, hcs⟩ := List.exists_cons_of_ne_nil hne
    obtain ⟨p, s, rfl, hs⟩ := h3 c (by rw [hcs]; exact List.mem_cons_self)
    have : L.evalAt r.params xc (.model p s) = .error .typeError := by
      rw [Lmfit.evalAt]
      rw [if_pos hs, ite_self]
    rw [hcs, List.mapM_cons, this]
    exact ⟨_, rfl⟩

/-! ## Deconvolved curves -/

/-- **C93** (partial) for fits with a resolution: the deconvolved curve, when it can be drawn, is the sum of the Gaussians of the
signals with the fitted parameters. Missing: the backgrounds, see `C93_deconv_background`. -/
theorem C93_deconv_partial (L : Lmfit) (d : FitData) (rez : List (ℝ × ℝ)) (as : List FitAct) (hn : Spec.NamedFits as)
    (x : Option (List Num)) (r : FitResult) (xs ys : List Num) :
    let f := (newConvFit d rez).acts L ConvFit1D.step ConvFit1D.fitView as
    f.result = some r → f.curve L ConvFit1D.fitView x true = .ok (xs, ys) →
    xs = x.getD f.base.data.x ∧
    ys = xs.map (Spec.fitTotal L r.params ((Spec.prefixes f.base.signals).map fun p => .model p "Gaussian".toList)) := by
  intro f hr hcv
  obtain ⟨-, -, h1, -, -⟩ := conv_result hn hr
  obtain ⟨ht, -⟩ := conv_tidy L d rez as
  rw [Fitting.curve, Fitting.params, hr] at hcv
  dsimp only at hcv
  rw [if_pos rfl] at hcv
  obtain ⟨y, hy, hcv⟩ := py_bind_eq_ok.1 hcv
  obtain ⟨rfl, rfl⟩ := Prod.mk.inj (Except.ok.inj hcv)
  refine ⟨rfl, ?_⟩
  obtain ⟨cs, hcs, hy⟩ := py_bind_eq_ok.1 hy
  rw [py_bind_ok] at hy
  have e : cs = (Spec.prefixes f.base.signals).map fun p => .model p "Gaussian".toList := by
    have := need_eq_ok.1 hcs
    rw [← ht.intrinsic]
    have e2 : some (f.base.signalsIntrinsic ++ []) = some cs := this
    rw [List.append_nil] at e2
    exact (Option.some.inj e2).symm
  subst e
  have hpl : Spec.Plain93 "Gaussian".toList := ⟨by decide, by decide⟩
  have hev := hy
  rw [Lmfit.evalSum] at hy
  obtain ⟨cs, hcs', hy⟩ := py_bind_eq_ok.1 hy
  obtain ⟨rfl, hne, -⟩ := composite_inv hcs'
  obtain ⟨zs, hzs, -⟩ := py_bind_eq_ok.1 hy
  have hall := mapM_ok_inv hzs
  rw [evalSum_ok L _ h1 _ hne (fun c hc => by
    obtain ⟨p, -, rfl⟩ := List.mem_map.1 hc; exact ⟨_, _, rfl, hpl⟩) ?_] at hev
  · exact (Except.ok.inj hev).symm
  · intro p s hm a ha
    cases hl : lookupKey (p ++ a) r.params with
    | some v => exact ⟨v, rfl⟩
    | none =>
      obtain ⟨i, hi, hget⟩ := List.getElem_of_mem hm
      have hrel := (List.forall₂_iff_get.1 hall).2 i hi (by rw [← hall.length_eq]; exact hi)
      simp only [List.get_eq_getElem, hget] at hrel
      rw [evalOne_missing L _ h1 _ ha hl] at hrel
      cases hrel

/-- What the deconvolved curve should be: the sum of all signals and all backgrounds, none of them convolved. -/
noncomputable def Spec.deconvTotal (L : Lmfit) (pars : FitPars) (f : ConvFit1D) (x : Num) : Num :=
  nadd (Spec.fitTotal L pars ((Spec.prefixes f.signals).map fun p => .model p "Gaussian".toList) x)
    (((Spec.prefixes f.backgrounds).map fun p => some ((lookupKey (p ++ "c".toList) pars).getD 0)).foldr nadd (some 0))

/-- **C93** for fits with a resolution, the code disagrees: the deconvolved curve of a fit with one background is too low by that
background, at every point. -/
theorem C93_deconv_background (L : Lmfit) (d : FitData) (rez : List (ℝ × ℝ)) (as : List FitAct) (hn : Spec.NamedFits as)
    (x : Option (List Num)) (r : FitResult) (xs ys : List Num) (pre : Str) (c : ℝ) (hc : c ≠ 0) :
    let f := (newConvFit d rez).acts L ConvFit1D.step ConvFit1D.fitView as
    f.result = some r → f.curve L ConvFit1D.fitView x true = .ok (xs, ys) →
    Spec.prefixes f.base.backgrounds = [pre] → lookupKey (pre ++ "c".toList) r.params = some c →
    ∀ (i : ℕ) t v, xs[i]? = some t → ys[i]? = some (some v) → Spec.deconvTotal L r.params f.base t = some (v + c) ∧
      Spec.deconvTotal L r.params f.base t ≠ some v := by
  intro f hr hcv hb hl i t v hx hy
  obtain ⟨-, rfl⟩ := C93_deconv_partial L d rez as hn x r xs ys hr hcv
  rw [List.getElem?_map, hx, Option.map_some] at hy
  have e : Spec.deconvTotal L r.params f.base t = some (v + c) := by
    rw [Spec.deconvTotal, Option.some.inj hy, hb, List.map_singleton, hl]
    show some (v + (c + 0)) = _
    rw [add_zero]
  refine ⟨e, ?_⟩
  rw [e]
  intro h
  exact hc (by linarith [Option.some.inj h])

end Tavi
