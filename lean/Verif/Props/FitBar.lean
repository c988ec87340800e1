import Verif.Props.FitGuess
import Verif.Props.Curve
import Verif.Props.Rebin

/-!
# C93, continued: resolution bars at a fitted peak, and the points curves are drawn at
-/

namespace Tavi

/-! ## Bars -/

/-- The sum of the values of all components but those with this prefix. -/
noncomputable def Spec.fitOthers (L : Lmfit) (pars : FitPars) (comps : List FitComp) (pre : Str) (x : Num) : Num :=
  ((comps.filter fun c => match c with | .model p _ => p ≠ pre | .text _ => true).map (Spec.fitValue L pars x)).foldr nadd (some 0)

theorem evalAt_ok (L : Lmfit) {pars : FitPars} (h : Spec.FitNamed pars) (x : ℝ) {pre shape : Str}
    (hs : Spec.Plain93 shape) (hc : ∀ a ∈ L.args shape, ∃ v, lookupKey (pre ++ a) pars = some v) :
    L.evalAt pars x (.model pre shape) = .ok (pre, Spec.fitValue L pars (some x) (.model pre shape)) := by
  rw [Lmfit.evalAt, argsOf_eq L hs, if_pos, if_neg (by rintro (e | e); exacts [hs.1 e, hs.2 e])]
  · congr 2
    refine L.value_args _ _ _ _ fun a ha => ?_
    rw [argValue_eq h (L.args_plain _ a ha)]
  · rw [List.all_eq_true]
    intro a ha
    obtain ⟨v, hv⟩ := hc a ha
    rw [argValue_eq h (L.args_plain _ a ha), hv]; rfl

/-- A dict made of pairs with different keys is those pairs. -/
theorem assocUpdate_nodup {β : Type} (l : List (Str × β)) : ∀ d : List (Str × β), ((d ++ l).map Prod.fst).Nodup → assocUpdate d l = d ++ l := by
  induction l with
  | nil => intro d _; rw [List.append_nil]; rfl
  | cons p l ih =>
    intro d hd
    rw [assocUpdate, List.foldl_cons]
    have hset : ∀ (d : List (Str × β)), p.1 ∉ d.map Prod.fst → assocSet d p.1 p.2 = d ++ [p] := by
      intro d
      induction d with
      | nil => intro _; rfl
      | cons q d ihd =>
        intro hq
        rw [List.map_cons, List.mem_cons, not_or] at hq
        obtain ⟨k, v⟩ := q
        rw [assocSet, if_neg (fun e => hq.1 e.symm), ihd hq.2]; rfl
    have hp : p.1 ∉ d.map Prod.fst := by
      intro hm
      rw [List.map_append, List.map_cons] at hd
      exact List.disjoint_of_nodup_append hd hm List.mem_cons_self
    rw [hset d hp]
    show assocUpdate (d ++ [p]) l = _
    rw [ih (d ++ [p]) (by rw [List.append_assoc]; exact hd), List.append_assoc]; rfl

/-- The prefix of a component, and its value. -/
noncomputable def tagged (L : Lmfit) (pars : FitPars) (x : ℝ) (c : FitComp) : Str × Num :=
  (match c with | .model p _ => p | .text s => s, Spec.fitValue L pars (some x) c)

theorem nadd_assoc (a b c : Num) : nadd (nadd a b) c = nadd a (nadd b c) := by
  cases a <;> cases b <;> cases c <;> simp [nadd, add_assoc]

theorem zero_nadd (a : Num) : nadd (some 0) a = a := by cases a <;> simp [nadd]

theorem foldl_foldr {α : Type} (g : α → Num) (l : List α) :
    l.foldl (fun s p => nadd s (g p)) (some 0) = (l.map g).foldr nadd (some 0) := by
  have key : ∀ (l : List α) (s : Num), l.foldl (fun s p => nadd s (g p)) s = nadd s ((l.map g).foldr nadd (some 0)) := by
    intro l
    induction l with
    | nil => intro s; exact (nadd_zero s).symm
    | cons a l ih => intro s; rw [List.foldl_cons, ih, List.map_cons, List.foldr_cons, nadd_assoc]
  rw [key, zero_nadd]

theorem evalAll_ok {L : Lmfit} {r : FitResult} (ht : Tidy93 r.comps) (hn : Spec.FitNamed r.params)
    (hc : Spec.FitComplete L r.comps r.params) (x : ℝ) :
    r.comps.mapM (L.evalAt r.params x) = .ok (r.comps.map (tagged L r.params x)) ∧
    assocUpdate [] (r.comps.map (tagged L r.params x)) = r.comps.map (tagged L r.params x) := by
  constructor
  · refine mapM_ok fun c hcm => ?_
    obtain ⟨p, s, rfl, hs⟩ := madeBy_model (ht.made c hcm)
    exact evalAt_ok L hn x hs fun a ha => hc p s hcm a (by rw [argsOf_eq L hs]; exact ha)
  · refine assocUpdate_nodup _ [] ?_
    have : (r.comps.map (tagged L r.params x)).map Prod.fst = Spec.prefixes r.comps := by
      have hm := tidy_models ht
      revert hm
      generalize r.comps = comps
      intro hm
      induction comps with
      | nil => rfl
      | cons c comps ih =>
        obtain ⟨p, s, rfl⟩ := hm c List.mem_cons_self
        rw [List.map_cons, List.map_cons, ih fun c h => hm c (List.mem_cons_of_mem _ h)]
        rfl
    rw [List.nil_append, this]
    exact ht.apart.imp fun {a b} h e => h [] [] (by rw [e])

/-- **C93**: a resolution bar put at a fit is at the fitted centre of the first signal, half of that signal above all other
components. -/
theorem C93_bar (L : Lmfit) (d : FitData) (as : List FitAct) (hn : Spec.NamedFits as) (r : FitResult) (shape : Str) (xc : ℝ)
    (hr : ((newFit d).acts L Fit1D.step Fit1D.fitView as).result = some r)
    (hs : .model "s1_".toList shape ∈ r.comps) (hx : lookupKey "s1_center".toList r.params = some xc) :
    L.barPos r = .ok (xc, nadd (ndiv (Spec.fitValue L r.params (some xc) (.model "s1_".toList shape)) (some 2))
      (Spec.fitOthers L r.params r.comps "s1_".toList (some xc))) := by
  obtain ⟨ht, -⟩ := result_tidy hr
  obtain ⟨h1, h2⟩ := result_params hn hr
  obtain ⟨e1, e2⟩ := evalAll_ok ht h1 h2 xc
  rw [Lmfit.barPos, hx, need_some, py_bind_ok, e1, py_bind_ok, e2]
  have hnd : ((r.comps.map (tagged L r.params xc)).map Prod.fst).Nodup := by
    rw [← e2]; exact nodup_assocUpdate _ List.nodup_nil
  rw [(lookupKey_mem hnd).2 (List.mem_map.2 ⟨_, hs, rfl⟩), need_some, py_bind_ok]
  congr 3
  rw [foldl_foldr, Spec.fitOthers]
  congr 1
  have hm := tidy_models ht
  revert hm
  generalize r.comps = comps
  intro hm
  induction comps with
  | nil => rfl
  | cons c comps ih =>
    obtain ⟨p, s, rfl⟩ := hm c List.mem_cons_self
    have := ih fun c h => hm c (List.mem_cons_of_mem _ h)
    rw [List.map_cons, List.filter_cons, List.filter_cons]
    by_cases hp : p = "s1_".toList
    · rw [if_neg (by simp [tagged, hp]), if_neg (by simp [hp])]
      exact this
    · rw [if_pos (by exact decide_eq_true hp), if_pos (by exact decide_eq_true hp), List.map_cons, List.map_cons, this]
      rfl

/-- **C93**: without a first signal, or with one that has no centre, no bar is put. The first signal is missing also when adding
it failed and later ones were added. -/
theorem C93_bar_missing (L : Lmfit) (d : FitData) (as : List FitAct) (hn : Spec.NamedFits as) (r : FitResult)
    (hr : ((newFit d).acts L Fit1D.step Fit1D.fitView as).result = some r)
    (h : (∀ shape, .model "s1_".toList shape ∉ r.comps) ∨ lookupKey "s1_center".toList r.params = none) :
    L.barPos r = .error .keyError := by
  cases hx : lookupKey "s1_center".toList r.params with
  | none => rw [Lmfit.barPos, hx]; rfl
  | some xc =>
    rcases h with h | h
    · obtain ⟨ht, -⟩ := result_tidy hr
      obtain ⟨h1, h2⟩ := result_params hn hr
      obtain ⟨e1, e2⟩ := evalAll_ok ht h1 h2 xc
      rw [Lmfit.barPos, hx, need_some, py_bind_ok, e1, py_bind_ok, e2, (lookupKey_eq_none _ _).2]
      · rfl
      · rw [List.map_map]
        intro hm
        obtain ⟨c, hc, e⟩ := List.mem_map.1 hm
        obtain ⟨p, s, rfl⟩ := tidy_models ht c hc
        obtain rfl : p = "s1_".toList := e
        exact h s hc
    · rw [hx] at h; cases h

/-! ## Points -/

/-- **C93**: the points offered for drawing go from the smallest to the largest selected value, at equal distances, unless other
limits are given. -/
theorem C93_points (xs : List ℝ) (d : FitData) (hd : d.x = xs.map some) (lo hi : Option ℝ) (n : ℤ) (hn : 0 ≤ n) (a b : ℝ)
    (ha : lo = some a ∨ lo = none ∧ a ∈ xs ∧ ∀ x ∈ xs, a ≤ x) (hb : hi = some b ∨ hi = none ∧ b ∈ xs ∧ ∀ x ∈ xs, x ≤ b) :
    ∃ l, d.xToPlot lo hi n = .ok (l.map some) ∧ Spec.Even a b n l := by
  have e1 : pickLimit lo (npMin d.x) = .ok (some a) := by
    rcases ha with rfl | ⟨rfl, h1, h2⟩
    · rfl
    · rw [hd]; exact npMin_ok h1 h2
  have e2 : pickLimit hi (npMax d.x) = .ok (some b) := by
    rcases hb with rfl | ⟨rfl, h1, h2⟩
    · rfl
    · rw [hd]; exact npMax_ok h1 h2
  obtain ⟨l, hl, he⟩ := linspace_even (a := a) (b := b) hn
  refine ⟨l, ?_, he⟩
  rw [FitData.xToPlot, e1, py_bind_ok, e2, py_bind_ok]
  dsimp only
  rw [hl]
  rfl

/-- **C93**, the code disagrees (in a function that is not part of the interface): the curve of `_add_fit_from_fitting` does not
start at the first selected point but at the number of points asked for. -/
theorem C93_private (L : Lmfit) (f : Fitting Fit1D) (n : ℕ) (x y : List Num) (h : f.privateCurve L (some n) = .ok (x, y))
    (hfin : ∃ b, npMax f.base.data.x = .ok (some b)) : x.head? = some (some (n : ℝ)) := by
  rw [Fitting.privateCurve] at h
  obtain ⟨r, -, h⟩ := py_bind_eq_ok.1 h
  obtain ⟨x', hx, h⟩ := py_bind_eq_ok.1 h
  obtain ⟨y', -, h⟩ := py_bind_eq_ok.1 h
  obtain ⟨rfl, -⟩ := Prod.mk.inj (Except.ok.inj h)
  obtain ⟨b, hb⟩ := hfin
  obtain ⟨l, hl, he⟩ := linspace_even (a := (n : ℝ)) (b := b) (n := 100) (by norm_num)
  rw [FitData.xToPlot, Option.map_some, pickLimit, py_bind_ok, pickLimit, hb, py_bind_ok] at hx
  dsimp only at hx
  rw [hl] at hx
  cases hx
  rw [List.head?_map, he.2.2.1]
  rfl

end Tavi
