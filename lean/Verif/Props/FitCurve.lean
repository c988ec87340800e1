import Verif.Model.FitCurve
import Verif.Props.Fit
import Verif.Props.Group
import Verif.Props.Filter
import Verif.Props.Loads
import Verif.Lemmas.Assoc

/-!
# C93: fitting, and the curves of fits

The property is about histories: adding components, selecting a range, fitting, with failures in between.
-/

namespace Tavi

/-! ## The words of the property -/

/-- What a program does to a fit: add a component, select a range, or fit. -/
inductive FitAct where
  | op (o : FitOp)
  | fit (pars : FitPars) (useErrorbar : Bool)

/-- One action; exceptions do not end a history. -/
noncomputable def Fitting.act {F : Type} (L : Lmfit) (step : F → FitOp → F × Option PyErr) (view : F → FitView) (f : Fitting F) :
    FitAct → Fitting F × Option PyErr
  | .op o => ({ f with base := (step f.base o).1 }, (step f.base o).2)
  | .fit p u => f.fit L view p u

/-- A history. -/
noncomputable def Fitting.acts {F : Type} (L : Lmfit) (step : F → FitOp → F × Option PyErr) (view : F → FitView) (f : Fitting F)
    (as : List FitAct) : Fitting F := as.foldl (fun f a => (f.act L step view a).1) f

/-- A new `Fit1D`. -/
def newFit (d : FitData) : Fitting Fit1D := ⟨Fit1D.mk d [] [] 0 0, none⟩

/-- A new `ConvFit1D`. -/
def newConvFit (d : FitData) (rez : List (ℝ × ℝ)) : Fitting ConvFit1D := ⟨ConvFit1D.mk d rez [] [] [] 0 0, none⟩

/-- The value of a component at a point: its shape, with the parameters that carry its prefix. -/
noncomputable def Spec.fitValue (L : Lmfit) (pars : FitPars) (x : Num) : FitComp → Num
  | .model pre shape => L.value shape (fun a => (lookupKey (pre ++ a) pars).getD 0) x
  | .text _ => none

/-- The sum of the values of all components. -/
noncomputable def Spec.fitTotal (L : Lmfit) (pars : FitPars) (comps : List FitComp) (x : Num) : Num :=
  (comps.map (Spec.fitValue L pars x)).foldr nadd (some 0)

/-- Parameters as they occur: no name twice, and every name has a prefix (of which the underscore is a part). -/
def Spec.FitNamed (pars : FitPars) : Prop := (pars.map Prod.fst).Nodup ∧ ∀ k ∈ pars.map Prod.fst, '_' ∈ k

/-- Every argument of every component has its parameter. -/
def Spec.FitComplete (L : Lmfit) (comps : List FitComp) (pars : FitPars) : Prop :=
  ∀ pre shape, .model pre shape ∈ comps → ∀ a ∈ L.argsOf shape, ∃ v, lookupKey (pre ++ a) pars = some v

/-- All components are models. -/
def Spec.AllModels (comps : List FitComp) : Prop := ∀ c ∈ comps, ∃ pre shape, c = .model pre shape

/-! ## Evaluating one model -/

theorem argValue_eq {pre : Str} {pars : FitPars} (h : Spec.FitNamed pars) {a : Str} (ha : '_' ∉ a) :
    argValue pre pars a = lookupKey (pre ++ a) pars := by
  have key : ∀ (pars : FitPars) (d : FitPars), Spec.FitNamed pars →
      lookupKey a (assocUpdate d (pars.map fun p => (stripPre pre p.1, p.2))) = (lookupKey (pre ++ a) pars).or (lookupKey a d) := by
    intro pars
    induction pars with
    | nil => intro d _; rfl
    | cons p pars ih =>
      intro d hp
      obtain ⟨k, v⟩ := p
      obtain ⟨h1, h2⟩ := hp
      rw [List.map_cons, List.nodup_cons] at h1
      rw [List.map_cons, assocUpdate, List.foldl_cons]
      show lookupKey a (assocUpdate _ (pars.map _)) = _
      rw [ih _ ⟨h1.2, fun k hk => h2 k (List.mem_cons_of_mem _ hk)⟩, lookupKey_assocSet, lookupKey]
      have hs : a = stripPre pre k ↔ k = pre ++ a := by
        rw [stripPre]
        split
        · rename_i hpre
          obtain ⟨t, rfl⟩ := List.isPrefixOf_iff_prefix.1 hpre
          rw [List.drop_left]
          exact ⟨fun e => by rw [e], fun e => (List.append_cancel_left e).symm⟩
        · rename_i hpre
          constructor
          · rintro rfl
            exact absurd (h2 a List.mem_cons_self) ha
          · rintro rfl
            exact absurd (List.isPrefixOf_iff_prefix.2 ⟨a, rfl⟩) hpre
      by_cases hk : k = pre ++ a
      · subst hk
        rw [if_pos (hs.2 rfl), if_pos rfl, (lookupKey_eq_none pars _).2 h1.1]; rfl
      · rw [if_neg (fun e => hk (hs.1 e)), if_neg hk]
  have := key pars [] h
  rw [argValue, this]
  cases lookupKey (pre ++ a) pars <;> rfl

theorem argsOf_plain (L : Lmfit) (shape a : Str) (h : a ∈ L.argsOf shape) : '_' ∉ a := by
  rw [Lmfit.argsOf] at h
  split at h
  · simp only [List.mem_cons, List.not_mem_nil, or_false] at h
    rcases h with rfl | rfl | rfl <;> decide
  · split at h
    · simp only [List.mem_cons, List.not_mem_nil, or_false] at h
      subst h; decide
    · exact L.args_plain shape a h

/-- A shape of lmfit, not one of those of convfit.py. -/
def Spec.Plain93 (shape : Str) : Prop := shape ≠ "conv_gaussian".toList ∧ shape ≠ "conv_constant".toList

theorem argsOf_eq (L : Lmfit) {shape : Str} (h : Spec.Plain93 shape) : L.argsOf shape = L.args shape := by
  rw [Lmfit.argsOf, if_neg h.1, if_neg h.2]

theorem evalOne_ok (L : Lmfit) (rez : List (ℝ × ℝ)) {pars : FitPars} (h : Spec.FitNamed pars) (x : List Num) {pre shape : Str}
    (hs : Spec.Plain93 shape) (hc : ∀ a ∈ L.args shape, ∃ v, lookupKey (pre ++ a) pars = some v) :
    L.evalOne rez pars x (.model pre shape) = .ok (x.map fun t => Spec.fitValue L pars t (.model pre shape)) := by
  rw [Lmfit.evalOne, argsOf_eq L hs, if_pos]
  · rw [Lmfit.values, if_neg hs.1, if_neg hs.2]
    congr 1
    refine List.map_congr_left fun t _ => L.value_args _ _ _ _ fun a ha => ?_
    rw [argValue_eq h (L.args_plain _ a ha)]
  · rw [List.all_eq_true]
    intro a ha
    obtain ⟨v, hv⟩ := hc a ha
    rw [argValue_eq h (L.args_plain _ a ha), hv]; rfl

theorem evalOne_missing (L : Lmfit) (rez : List (ℝ × ℝ)) {pars : FitPars} (h : Spec.FitNamed pars) (x : List Num) {pre shape : Str}
    {a : Str} (ha : a ∈ L.argsOf shape) (hn : lookupKey (pre ++ a) pars = none) :
    L.evalOne rez pars x (.model pre shape) = .error .typeError := by
  rw [Lmfit.evalOne, if_neg]
  intro hall
  have := List.all_eq_true.1 hall a ha
  rw [argValue_eq h (argsOf_plain L shape a ha), hn] at this
  cases this

theorem composite_ok {comps : List FitComp} (hne : comps ≠ []) (h : Spec.AllModels comps) : composite comps = .ok comps := by
  cases comps with
  | nil => exact absurd rfl hne
  | cons c cs =>
    obtain ⟨p, s, rfl⟩ := h c List.mem_cons_self
    rw [composite, if_pos]
    · rw [List.all_eq_true]
      intro d hd
      obtain ⟨p', s', rfl⟩ := h d (List.mem_cons_of_mem _ hd)
      rfl
    · intro s' e; cases e

theorem composite_inv {comps cs : List FitComp} (h : composite comps = .ok cs) : cs = comps ∧ comps ≠ [] ∧ Spec.AllModels comps := by
  cases comps with
  | nil => cases h
  | cons c l =>
    cases c with
    | text s => cases h
    | model p s =>
      rw [composite] at h
      · split at h
        · rename_i hall
          cases h
          refine ⟨rfl, by simp, fun c hc => ?_⟩
          rcases List.mem_cons.1 hc with rfl | hc
          · exact ⟨_, _, rfl⟩
          · have := List.all_eq_true.1 hall c hc
            cases c with
            | model p s => exact ⟨_, _, rfl⟩
            | text s => cases this
        · cases h
      · intro s' e; cases e

theorem nadd_zero (v : Num) : nadd v (some 0) = v := by
  cases v with
  | none => rfl
  | some v => show some (v + 0) = _; rw [add_zero]

theorem addCurves_map {α : Type} (x : List Num) (g : α → Num → Num) (l : List α) (hne : l ≠ []) :
    addCurves (l.map fun c => x.map (g c)) = x.map fun t => (l.map fun c => g c t).foldr nadd (some 0) := by
  induction l with
  | nil => exact absurd rfl hne
  | cons c l ih =>
    cases l with
    | nil =>
      show x.map (g c) = _
      refine List.map_congr_left fun t _ => ?_
      exact (nadd_zero _).symm
    | cons d l =>
      rw [List.map_cons]
      show List.zipWith nadd _ (addCurves ((d :: l).map fun c => x.map (g c))) = _
      rw [ih (by simp), List.zipWith_map, List.zipWith_self]
      rfl

theorem evalSum_ok (L : Lmfit) (rez : List (ℝ × ℝ)) {pars : FitPars} (h : Spec.FitNamed pars) (x : List Num) {comps : List FitComp}
    (hne : comps ≠ []) (hs : ∀ c ∈ comps, ∃ pre shape, c = .model pre shape ∧ Spec.Plain93 shape)
    (hc : Spec.FitComplete L comps pars) :
    L.evalSum rez comps pars x = .ok (x.map (Spec.fitTotal L pars comps)) := by
  rw [Lmfit.evalSum, composite_ok hne fun c hc => by obtain ⟨p, s, e, -⟩ := hs c hc; exact ⟨p, s, e⟩, py_bind_ok,
    mapM_ok (g := fun c => x.map fun t => Spec.fitValue L pars t c), py_bind_ok, addCurves_map _ _ _ hne]
  · rfl
  · intro c hcm
    obtain ⟨p, s, rfl, hs'⟩ := hs c hcm
    refine evalOne_ok L rez h x hs' fun a ha => hc p s hcm a ?_
    rw [argsOf_eq L hs']; exact ha

/-! ## What is known after a history -/

theorem acts_snoc {F : Type} (L : Lmfit) (step : F → FitOp → F × Option PyErr) (view : F → FitView) (f : Fitting F)
    (as : List FitAct) (a : FitAct) : f.acts L step view (as ++ [a]) = ((f.acts L step view as).act L step view a).1 := by
  rw [Fitting.acts, List.foldl_append]; rfl

theorem acts_append {F : Type} (L : Lmfit) (step : F → FitOp → F × Option PyErr) (view : F → FitView) (f : Fitting F)
    (as bs : List FitAct) : f.acts L step view (as ++ bs) = (f.acts L step view as).acts L step view bs := by
  rw [Fitting.acts, List.foldl_append]; rfl

/-- The additions and ranges of a history. -/
def opsOf (as : List FitAct) : List FitOp := as.filterMap fun a => match a with | .op o => some o | .fit _ _ => none

theorem acts_base {F : Type} (L : Lmfit) (step : F → FitOp → F × Option PyErr) (view : F → FitView) (f : Fitting F)
    (as : List FitAct) : (f.acts L step view as).base = (opsOf as).foldl (fun f o => (step f o).1) f.base := by
  induction as generalizing f with
  | nil => rfl
  | cons a as ih =>
    show ((f.act L step view a).1.acts L step view as).base = _
    rw [ih]
    cases a with
    | op o => rfl
    | fit p u =>
      show (opsOf as).foldl _ (f.fit L view p u).1.base = (opsOf as).foldl _ f.base
      rw [Fitting.fit]
      split <;> rfl

/-- **C93**: the result is always that of the last fit that succeeded, whatever failed or was changed afterwards. -/
theorem C93_result {F : Type} (L : Lmfit) (step : F → FitOp → F × Option PyErr) (view : F → FitView) (b : F) (as : List FitAct)
    (r : FitResult) : ((⟨b, none⟩ : Fitting F).acts L step view as).result = some r ↔
    ∃ before p u after, as = before ++ .fit p u :: after ∧
      L.fit (view ((⟨b, none⟩ : Fitting F).acts L step view before).base) p u = .ok r ∧
      ∀ mid p' u' rest, after = mid ++ .fit p' u' :: rest →
        ∃ e, L.fit (view ((⟨b, none⟩ : Fitting F).acts L step view (before ++ .fit p u :: mid)).base) p' u' = .error e := by
  induction as using List.reverseRecOn with
  | nil =>
    constructor
    · intro h; cases h
    · rintro ⟨before, p, u, after, h, -⟩
      have := congrArg List.length h
      simp at this
  | append_singleton as a ih =>
    rw [acts_snoc]
    cases a with
    | op o =>
      show ((⟨b, none⟩ : Fitting F).acts L step view as).result = some r ↔ _
      rw [ih]
      constructor
      · rintro ⟨before, p, u, after, rfl, h1, h2⟩
        refine ⟨before, p, u, after ++ [.op o], by simp, h1, fun mid p' u' rest e => ?_⟩
        rcases List.eq_nil_or_concat rest with rfl | ⟨rest', x, rfl⟩
        · have := List.append_inj_right' e rfl
          simp at this
        · rw [List.concat_eq_append, ← List.cons_append, ← List.append_assoc] at e
          obtain ⟨e1, -⟩ := List.append_inj' e rfl
          exact h2 mid p' u' rest' e1
      · rintro ⟨before, p, u, after, e, h1, h2⟩
        rcases List.eq_nil_or_concat after with rfl | ⟨after', x, rfl⟩
        · have := List.append_inj_right' e rfl
          simp at this
        · rw [List.concat_eq_append, ← List.cons_append, ← List.append_assoc] at e
          obtain ⟨e1, e2⟩ := List.append_inj' e rfl
          obtain rfl := List.singleton_inj.1 e2
          exact ⟨before, p, u, after', e1, h1, fun mid p' u' rest e' => h2 mid p' u' (rest ++ [.op o]) (by rw [e']; simp)⟩
    | fit q w =>
      show (Fitting.fit L view ((⟨b, none⟩ : Fitting F).acts L step view as) q w).1.result = some r ↔ _
      rw [Fitting.fit]
      cases hf : L.fit (view ((⟨b, none⟩ : Fitting F).acts L step view as).base) q w with
      | ok r' =>
        dsimp only
        constructor
        · rintro ⟨⟩
          exact ⟨as, q, w, [], by simp, hf, fun mid p' u' rest e => by
            have := congrArg List.length e
            simp at this⟩
        · rintro ⟨before, p, u, after, e, h1, h2⟩
          rcases List.eq_nil_or_concat after with rfl | ⟨after', x, rfl⟩
          · obtain ⟨e1, e2⟩ := List.append_inj' e rfl
            subst e1
            obtain ⟨rfl, rfl⟩ := FitAct.fit.inj (List.singleton_inj.1 e2)
            rw [hf] at h1
            exact congrArg some (Except.ok.inj h1)
          · rw [List.concat_eq_append, ← List.cons_append, ← List.append_assoc] at e
            obtain ⟨e1, e2⟩ := List.append_inj' e rfl
            obtain rfl := List.singleton_inj.1 e2
            obtain ⟨err, he⟩ := h2 after' q w [] (by simp)
            rw [← e1, hf] at he
            cases he
      | error err =>
        dsimp only
        rw [ih]
        constructor
        · rintro ⟨before, p, u, after, rfl, h1, h2⟩
          refine ⟨before, p, u, after ++ [.fit q w], by simp, h1, fun mid p' u' rest e => ?_⟩
          rcases List.eq_nil_or_concat rest with rfl | ⟨rest', x, rfl⟩
          · obtain ⟨e1, e2⟩ := List.append_inj' e rfl
            subst e1
            obtain ⟨rfl, rfl⟩ := FitAct.fit.inj (List.singleton_inj.1 e2)
            exact ⟨err, hf⟩
          · rw [List.concat_eq_append, ← List.cons_append, ← List.append_assoc] at e
            obtain ⟨e1, -⟩ := List.append_inj' e rfl
            exact h2 mid p' u' rest' e1
        · rintro ⟨before, p, u, after, e, h1, h2⟩
          rcases List.eq_nil_or_concat after with rfl | ⟨after', x, rfl⟩
          · obtain ⟨e1, e2⟩ := List.append_inj' e rfl
            subst e1
            obtain ⟨rfl, rfl⟩ := FitAct.fit.inj (List.singleton_inj.1 e2)
            rw [hf] at h1
            cases h1
          · rw [List.concat_eq_append, ← List.cons_append, ← List.append_assoc] at e
            obtain ⟨e1, e2⟩ := List.append_inj' e rfl
            obtain rfl := List.singleton_inj.1 e2
            exact ⟨before, p, u, after', e1, h1, fun mid p' u' rest e' => h2 mid p' u' (rest ++ [.fit q w]) (by rw [e']; simp)⟩

theorem hasAll_iff (L : Lmfit) (comps : List FitComp) (pars : FitPars) :
    L.hasAll comps pars = true ↔ Spec.FitComplete L comps pars := by
  rw [Lmfit.hasAll, List.all_eq_true]
  constructor
  · intro h pre shape hm a ha
    have := List.all_eq_true.1 (h _ hm) a ha
    exact Option.isSome_iff_exists.1 this
  · intro h c hc
    cases c with
    | text s => rfl
    | model pre shape =>
      dsimp only
      rw [List.all_eq_true]
      exact fun a ha => Option.isSome_iff_exists.2 (h pre shape hc a ha)

/-- **C93**: when a fit succeeds. The minimiser was given the models added so far, the parameters handed over, the selected points,
and the errors as weights exactly if they are to be used; it reported success (and error bars, where they are asked for). The
result has those models, and those parameters with the values the minimiser found. In all other cases there is an exception. -/
theorem C93_fit (L : Lmfit) (v : FitView) (pars : FitPars) (u : Bool) (r : FitResult) :
    L.fit v pars u = .ok r ↔
    v.comps ≠ [] ∧ Spec.AllModels v.comps ∧ Spec.FitComplete L v.comps pars ∧
    ∃ bars val, L.minimise v.comps v.rez pars v.data.y v.data.x (if u then v.data.err else none) = .ok (true, bars, val) ∧
      (v.needErrorbars = true → bars = true) ∧ r = ⟨v.comps, v.rez, pars.map fun p => (p.1, val p.1)⟩ := by
  rw [Lmfit.fit]
  constructor
  · intro h
    obtain ⟨cs, hcs, h⟩ := py_bind_eq_ok.1 h
    obtain ⟨rfl, h1, h2⟩ := composite_inv hcs
    split at h
    · rename_i hall
      obtain ⟨⟨s, bars, val⟩, ho, h⟩ := py_bind_eq_ok.1 h
      dsimp only at h
      split at h
      · rename_i hs
        subst hs
        split at h
        · cases h
        · rename_i hb
          refine ⟨h1, h2, (hasAll_iff L _ _).1 hall, bars, val, ho, fun hn => ?_, (Except.ok.inj h).symm⟩
          rw [hn] at hb
          simpa using hb
      · cases h
    · cases h
  · rintro ⟨h1, h2, h3, bars, val, ho, hb, rfl⟩
    rw [composite_ok h1 h2, py_bind_ok, if_pos ((hasAll_iff L _ _).2 h3), ho, py_bind_ok]
    dsimp only
    rw [if_pos rfl, if_neg]
    cases hn : v.needErrorbars with
    | false => simp
    | true => simp [hb hn]

end Tavi
