import Verif.Props.Plot2D

/-!
# What a two-dimensional plot shows, continued (C91): the theorems
-/

namespace Tavi

open Spec Spec2 Matrix

theorem rightAngle_iff (a : ℝ) : isRightAngle a ↔ |a - 90| ≤ 0.0109 := by
  rw [isRightAngle, abs_of_pos (show (0 : ℝ) < 90 by norm_num)]
  norm_num

theorem tr_onAxes {q p : ℝ × ℝ} {a : ℝ} (h : tr q.1 q.2 a = .ok p) : OnAxes a q p := by
  rw [tr, plotOverTan] at h
  split at h
  · exact absurd h (by simp [Except.map])
  · rename_i hs
    obtain rfl := Except.ok.inj h
    refine ⟨rfl, ?_⟩
    dsimp only
    rw [add_sub_cancel_left, div_mul_cancel₀ _ hs]

theorem ellipseCall_ok {f : Fmt} {e : EllipseObj} (he : Decomposed e) {cs : List Ax2Call} {F : Str → Option Str}
    (hf : ∀ k, lookupKey k f = F k) (h : ellipseCall f (.ellipse e) = .ok cs) : ∃ c, cs = [c] ∧ Ellipses F (.ellipse e) c := by
  obtain ⟨pts, h1, hl, hh⟩ := C67_half_height he.spd he.eig he.orth e.centre.1 e.centre.2 128
  rw [ellipseCall, h1, py_bind_ok] at h
  obtain ⟨pts', h2, rfl⟩ := map_eq_ok.1 h
  refine ⟨_, rfl, ?_⟩
  split at h2
  · rename_i hr
    obtain rfl := Except.ok.inj h2
    exact .mk e _ f hf hl fun p hp => ⟨p, fun _ => rfl, fun h => absurd ((rightAngle_iff _).1 hr) h, hh p hp⟩
  · rename_i hr
    have h3 := mapM_ok_inv h2
    refine .mk e _ f hf (h3.length_eq ▸ hl) fun p hp => ?_
    clear h2 h1 hl h
    induction h3 with
    | nil => exact absurd hp (by simp)
    | cons hab _ ih =>
      rcases List.mem_cons.1 hp with rfl | hp
      · exact ⟨_, fun h => absurd ((rightAngle_iff _).2 h) hr, fun _ => tr_onAxes hab, hh _ List.mem_cons_self⟩
      · exact ih (fun q hq => hh q (List.mem_cons_of_mem _ hq)) hp

theorem flatMap_forall₂ {α β : Type} {R : α → β → Prop} {f : α → List β} (l : List α) (h : ∀ a ∈ l, ∃ b, f a = [b] ∧ R a b) :
    List.Forall₂ R l (l.flatMap f) := by
  induction l with
  | nil => exact .nil
  | cons a l ih =>
    obtain ⟨b, hb, hr⟩ := h a List.mem_cons_self
    rw [List.flatMap_cons, hb]
    exact .cons hr (ih fun a ha => h a (List.mem_cons_of_mem _ ha))

theorem flatten_forall₂ {α β : Type} {R : α → β → Prop} {l : List α} {r : List (List β)}
    (h : List.Forall₂ (fun a bs => ∃ b, bs = [b] ∧ R a b) l r) : List.Forall₂ R l r.flatten := by
  induction h with
  | nil => exact .nil
  | cons h1 _ ih =>
    obtain ⟨b, rfl, hr⟩ := h1
    exact .cons hr ih

theorem mem_contours {obj : ℕ → Obj2} {p : ℕ} {ops : List Plot2Op} {o : ℕ} (h : o ∈ Spec2.contours obj p ops) :
    ∃ x y z t l, obj o = .contour x y z t l := by
  have := (List.mem_filter.1 h).2
  cases ho : obj o with
  | contour x y z t l => exact ⟨x, y, z, t, l, rfl⟩
  | _ => rw [ho] at this; exact absurd this (by simp [isContour])

theorem mem_curves {obj : ℕ → Obj2} {p : ℕ} {ops : List Plot2Op} {o : ℕ} (h : o ∈ Spec2.curves obj p ops) :
    ∃ x y e, obj o = .curve x y e := by
  have := (List.mem_filter.1 h).2
  cases ho : obj o with
  | curve x y e => exact ⟨x, y, e, rfl⟩
  | _ => rw [ho] at this; exact absurd this (by simp [isCurve])

theorem mem_ellipses {obj : ℕ → Obj2} {p : ℕ} {ops : List Plot2Op} {o : ℕ} (h : o ∈ ellipses obj p ops) :
    ∃ e, obj o = .ellipse e := by
  have := (List.mem_filter.1 h).2
  cases ho : obj o with
  | ellipse e => exact ⟨e, rfl⟩
  | _ => rw [ho] at this; exact absurd this (by simp [isEllipse])

theorem labelOf_ok {user : Option Str} {lab : Obj2 → Py (Option Str)} {L : Obj2 → Str → Prop}
    (hlab : ∀ o l, lab o = .ok l → ∀ s, l = some s ↔ L o s) {source : List Obj2} {mk : Str → Ax2Call} {cs : List Ax2Call}
    (h : labelOf user lab source mk = .ok cs) :
    (user = none → ∃ t, cs = [mk t] ∧ Joined2 L source t) ∧ (user ≠ none → cs = []) := by
  cases user with
  | some u => exact ⟨fun h => absurd h (by simp), fun _ => (Except.ok.inj h).symm⟩
  | none =>
    refine ⟨fun _ => ?_, fun h => absurd rfl h⟩
    rw [labelOf] at h
    obtain ⟨ls, h1, rfl⟩ := map_eq_ok.1 h
    refine ⟨_, rfl, _, ?_, fun l => ?_, intercalate_eq _ _⟩
    · have h3 : (sortStr ((ls.filterMap id).dedup)).Nodup := (sortStr_perm _).nodup_iff.2 (List.nodup_dedup _)
      have h4 := sortStr_sorted ((ls.filterMap id).dedup)
      exact (h4.and h3).imp fun h => lt_of_le_of_ne h.1 h.2
    · rw [mem_sortStr, List.mem_dedup, List.mem_filterMap]
      have h2 := mapM_ok_inv h1
      clear h h1
      induction h2 with
      | nil => simp
      | cons hab _ ih =>
        simp only [List.mem_cons, exists_eq_or_imp]
        exact or_congr (hlab _ _ hab l) ih

theorem xlab_spec (o : Obj2) (l : Option Str) (h : o.xlab = .ok l) (s : Str) : l = some s ↔ XLabel o s := by
  cases o with
  | contour x y z t k =>
    obtain ⟨k', hk, rfl⟩ := map_eq_ok.1 h
    obtain rfl := need_eq_ok.1 hk
    constructor
    · intro h; obtain rfl := Option.some.inj h; exact .contour ..
    · intro h; cases h; rfl
  | curve x y e => exact absurd h (by simp [Obj2.xlab])
  | ellipse e =>
    obtain rfl := Except.ok.inj h
    constructor
    · exact .ellipse e s
    · intro h; cases h; assumption

theorem ylab_spec (o : Obj2) (l : Option Str) (h : o.ylab = .ok l) (s : Str) : l = some s ↔ YLabel o s := by
  cases o with
  | contour x y z t k =>
    obtain ⟨k', hk, rfl⟩ := map_eq_ok.1 h
    obtain rfl := need_eq_ok.1 hk
    constructor
    · intro h; obtain rfl := Option.some.inj h; exact .contour ..
    · intro h; cases h; rfl
  | curve x y e => exact absurd h (by simp [Obj2.ylab])
  | ellipse e =>
    obtain rfl := Except.ok.inj h
    constructor
    · exact .ellipse e s
    · intro h; cases h; assumption

theorem labelled_eq {obj : ℕ → Obj2} {p : ℕ} {ops : List Plot2Op} {q : Plot2D} (h1 : q.contours = Spec2.contours obj p ops)
    (h3 : q.resos = ellipses obj p ops) : (if q.resos ≠ [] then q.resos else q.contours) = labelled obj p ops := by
  rw [labelled, h1, h3]
  by_cases h : ellipses obj p ops = []
  · rw [if_neg (not_not.2 h), if_pos h]
  · rw [if_pos h, if_neg h]

/-- **C91**: what drawing a two-dimensional plot calls, after any history of operations on any number of plots: the contour maps
with their formats, the curves with their errors, the half-height contours of the ellipses on the axes of the plot, limits, title,
labels. The last contour map is returned. -/
theorem C91_drawn (obj : ℕ → Obj2) (w : Plots2) (ops : List Plot2Op) (hk : Keywords ops) (p : ℕ) (hp : w.plots p = Plot2D.new)
    (hd : ∀ o ∈ ellipses obj p ops, ∀ e, obj o = .ellipse e → Decomposed e) (cs : List Ax2Call) (im : Option ℕ)
    (h : (w.run obj ops).calls obj p = .ok (cs, im)) :
    ∃ meshes curves ells title lx ly legend,
      cs = meshes ++ curves ++ ells ++ ((xlim p ops).map Ax2Call.xlim).toList ++ ((ylim p ops).map Ax2Call.ylim).toList ++
        title ++ lx ++ ly ++ [.grid] ++ legend ∧
      List.Forall₂ (fun o c => Meshes (format w ops o) (obj o) c) (Spec2.contours obj p ops) meshes ∧
      List.Forall₂ (fun o c => Curves (obj o) c) (Spec2.curves obj p ops) curves ∧
      List.Forall₂ (fun o c => Ellipses (format w ops o) (obj o) c) (ellipses obj p ops) ells ∧
      (Spec2.contours obj p ops = [] → title = ((Spec2.title p ops).map Ax2Call.title).toList ∧ im = none) ∧
      (∀ o l, Spec2.contours obj p ops = l ++ [o] → title = [.title (obj o).title] ∧ im = some o) ∧
      (xlabel p ops = none → ∃ t, lx = [.xlabel t] ∧ Joined2 XLabel ((labelled obj p ops).map obj) t) ∧
      (xlabel p ops ≠ none → lx = []) ∧
      (ylabel p ops = none → ∃ t, ly = [.ylabel t] ∧ Joined2 YLabel ((labelled obj p ops).map obj) t) ∧
      (ylabel p ops ≠ none → ly = []) ∧
      ((legend = [.legend] ∧ ∃ o ∈ added p ops, (format w ops o "label".toList).isSome) ∨
        (legend = [] ∧ ∀ o ∈ added p ops, format w ops o "label".toList = none)) := by
  obtain ⟨h1, h2, h3, h4, h5, h6, h7, h8⟩ := keeps2_run obj w ops p hp
  have hl := labelled_eq h1 h3
  rw [Plots2.calls] at h
  obtain ⟨ells, he, h⟩ := py_bind_eq_ok.1 h
  obtain ⟨lx, hx, h⟩ := py_bind_eq_ok.1 h
  obtain ⟨ly, hy, h⟩ := py_bind_eq_ok.1 h
  obtain ⟨hcs, him⟩ := Prod.mk.inj (Except.ok.inj h)
  clear h
  rw [hl, h5] at hx
  rw [hl, h6] at hy
  rw [h1, h2, h7, h8] at hcs
  rw [h1] at him
  rw [h3] at he
  have hX := labelOf_ok xlab_spec hx
  have hY := labelOf_ok ylab_spec hy
  refine ⟨_, _, _, _, lx, ly, _, hcs.symm, ?_, ?_, ?_, ?_, ?_, hX.1, hX.2, hY.1, hY.2, ?_⟩
  · refine flatMap_forall₂ _ fun o ho => ?_
    obtain ⟨x, y, z, t, l, e⟩ := mem_contours ho
    rw [e]
    exact ⟨_, rfl, .mk x y z t l _ (format_run obj w ops hk o)⟩
  · refine flatMap_forall₂ _ fun o ho => ?_
    obtain ⟨x, y, z, e⟩ := mem_curves ho
    rw [e]
    exact ⟨_, rfl, .mk ..⟩
  · refine flatten_forall₂ ?_
    have h9 := mapM_ok_inv he
    have h10 : ∀ o ∈ ellipses obj p ops, ∃ e, obj o = .ellipse e ∧ Decomposed e := fun o ho => by
      obtain ⟨e, e1⟩ := mem_ellipses ho
      exact ⟨e, e1, hd o ho e e1⟩
    clear * - h9 h10 hk
    generalize ellipses obj p ops = E at h9 h10
    induction h9 with
    | nil => exact .nil
    | @cons o cs _ _ hab _ ih =>
      refine .cons ?_ (ih fun o ho => h10 o (List.mem_cons_of_mem _ ho))
      obtain ⟨e, e1, e2⟩ := h10 o List.mem_cons_self
      rw [e1] at hab ⊢
      exact ellipseCall_ok e2 (format_run obj w ops hk o) hab
  · intro hc
    rw [← him, hc]
    refine ⟨?_, rfl⟩
    rw [Plot2D.titleAfter, h1, hc]
    exact congrArg (fun t => (Option.map Ax2Call.title t).toList) (h4 hc)
  · intro o l hc
    rw [← him, hc]
    refine ⟨?_, by simp⟩
    rw [Plot2D.titleAfter, h1, hc, List.getLast?_concat]
    rfl
  · have hm : ∀ o, o ∈ ((w.run obj ops).plots p).contours ++ ((w.run obj ops).plots p).resos ++ ((w.run obj ops).plots p).curves ↔
        o ∈ added p ops := by
      intro o
      rw [h1, h2, h3, List.mem_append, List.mem_append, Spec2.contours, ellipses, Spec2.curves, List.mem_filter, List.mem_filter, List.mem_filter]
      cases obj o <;> simp [isContour, isCurve, isEllipse]
    rw [← h1, ← h2]
    split
    · rename_i hc
      obtain ⟨o, ho, hs⟩ := List.any_eq_true.1 hc
      exact .inl ⟨rfl, o, (hm o).1 ho, by rw [← format_run obj w ops hk]; exact hs⟩
    · rename_i hc
      refine .inr ⟨rfl, fun o ho => ?_⟩
      by_contra hn
      rw [← format_run obj w ops hk] at hn
      exact hc (List.any_eq_true.2 ⟨o, (hm o).2 ho, Option.isSome_iff_ne_none.2 hn⟩)

theorem mapM_total {α β : Type} {f : α → Py β} {l : List α} (h : ∀ a ∈ l, ∃ b, f a = .ok b) : ∃ r, l.mapM f = .ok r := by
  induction l with
  | nil => exact ⟨[], rfl⟩
  | cons a l ih =>
    obtain ⟨b, hb⟩ := h a List.mem_cons_self
    obtain ⟨r, hr⟩ := ih fun a ha => h a (List.mem_cons_of_mem _ ha)
    exact ⟨b :: r, by rw [List.mapM_cons, hb, hr]; rfl⟩

theorem ellipseCall_total {f : Fmt} {e : EllipseObj} (he : Decomposed e) (ha : ∀ n : ℤ, e.angle ≠ 180 * n) :
    ∃ cs, ellipseCall f (.ellipse e) = .ok cs := by
  obtain ⟨pts, h1, _, _⟩ := C67_half_height he.spd he.eig he.orth e.centre.1 e.centre.2 128
  rw [ellipseCall, h1, py_bind_ok]
  by_cases hr : isRightAngle e.angle
  · rw [if_pos hr]; exact ⟨_, rfl⟩
  · rw [if_neg hr]
    obtain ⟨r, hr⟩ := mapM_total (l := pts) (f := fun p => tr p.1 p.2 e.angle) fun q _ => by
      by_contra hn
      obtain ⟨n, hn⟩ := ((C61_parallel q.1 q.2 e.angle).1).1 fun p hp => hn ⟨p, hp⟩
      exact ha n hn
    rw [hr]; exact ⟨_, rfl⟩

/-- An object has a label for each axis: every ellipse, and a contour map after `make_labels`. -/
def Spec2.HasLabels : Obj2 → Prop
  | .contour _ _ _ _ l => l ≠ none
  | .ellipse _ => True
  | .curve _ _ _ => False

/-- **C91**: a plot can be drawn when the axes of its ellipses are not parallel, and its contour maps have labels, or there are
ellipses, or the labels are set by the user. -/
theorem C91_total (obj : ℕ → Obj2) (w : Plots2) (ops : List Plot2Op) (p : ℕ) (hp : w.plots p = Plot2D.new)
    (hd : ∀ o ∈ ellipses obj p ops, ∀ e, obj o = .ellipse e → Decomposed e ∧ ∀ n : ℤ, e.angle ≠ 180 * n)
    (hx : xlabel p ops = none ∨ ylabel p ops = none → ∀ o ∈ labelled obj p ops, HasLabels (obj o)) :
    ∃ r, (w.run obj ops).calls obj p = .ok r := by
  obtain ⟨h1, _, h3, _, h5, h6, _, _⟩ := keeps2_run obj w ops p hp
  have hl := labelled_eq h1 h3
  obtain ⟨ells, he⟩ := mapM_total (l := ellipses obj p ops) (f := fun o => ellipseCall ((w.run obj ops).fmt o) (obj o)) fun o ho => by
    obtain ⟨e, e1⟩ := mem_ellipses ho
    rw [e1]
    exact ellipseCall_total (hd o ho e e1).1 (hd o ho e e1).2
  have lab : ∀ (u : Option Str) (lab : Obj2 → Py (Option Str)) (mk : Str → Ax2Call), (u = none → ∀ o ∈ labelled obj p ops, HasLabels (obj o)) →
      (∀ o, HasLabels o → ∃ l, lab o = .ok l) → ∃ cs, labelOf u lab ((labelled obj p ops).map obj) mk = .ok cs := by
    intro u lab mk h hlab
    cases u with
    | some u => exact ⟨[], rfl⟩
    | none =>
      obtain ⟨r, hr⟩ := mapM_total (l := (labelled obj p ops).map obj) (f := lab) fun o ho => by
        obtain ⟨n, hn, rfl⟩ := List.mem_map.1 ho
        exact hlab _ (h rfl n hn)
      exact ⟨_, by rw [labelOf, hr]; rfl⟩
  obtain ⟨lx, hlx⟩ := lab (xlabel p ops) Obj2.xlab .xlabel (fun h => hx (.inl h)) fun o ho => by
    cases o with
    | contour x y z t l =>
      cases l with
      | none => exact absurd rfl ho
      | some l => exact ⟨_, rfl⟩
    | curve x y e => exact absurd ho (by simp [HasLabels])
    | ellipse e => exact ⟨_, rfl⟩
  obtain ⟨ly, hly⟩ := lab (ylabel p ops) Obj2.ylab .ylabel (fun h => hx (.inr h)) fun o ho => by
    cases o with
    | contour x y z t l =>
      cases l with
      | none => exact absurd rfl ho
      | some l => exact ⟨_, rfl⟩
    | curve x y e => exact absurd ho (by simp [HasLabels])
    | ellipse e => exact ⟨_, rfl⟩
  rw [Plots2.calls, hl, h3, he, py_bind_ok, h5, hlx, py_bind_ok, h6, hly, py_bind_ok]
  exact ⟨_, rfl⟩

/-! ## The code disagrees -/

/-- **C91**, the code disagrees: the format given to a curve does not matter for how it is drawn; a colour or line style asked for
is ignored. (A label makes a legend appear, but without the curve.) -/
theorem C91_curve_format (obj : ℕ → Obj2) (w : Plots2) (ops : List Plot2Op) (p o : ℕ) (x y : List Num) (e : Option (List Num))
    (ho : obj o = .curve x y e) (kw kw' : Fmt) (hk : (kw.map Prod.fst).Nodup) (hk' : (kw'.map Prod.fst).Nodup)
    (hl : lookupKey "label".toList kw = lookupKey "label".toList kw') (q : ℕ) :
    (w.run obj (ops ++ [.add p o kw])).calls obj q = (w.run obj (ops ++ [.add p o kw'])).calls obj q := by
  rw [run2_snoc, run2_snoc]
  generalize w.run obj ops = v
  have hpl : (v.step obj (.add p o kw)).plots = (v.step obj (.add p o kw')).plots := rfl
  have hf : ∀ n, n ≠ o → (v.step obj (.add p o kw)).fmt n = (v.step obj (.add p o kw')).fmt n := fun n hn => by
    dsimp only [Plots2.step]; rw [if_neg hn, if_neg hn]
  have hm : ∀ n, meshCall ((v.step obj (.add p o kw)).fmt n) (obj n) = meshCall ((v.step obj (.add p o kw')).fmt n) (obj n) := fun n => by
    by_cases hn : n = o
    · rw [hn, ho]; rfl
    · rw [hf n hn]
  have he : ∀ n, ellipseCall ((v.step obj (.add p o kw)).fmt n) (obj n) = ellipseCall ((v.step obj (.add p o kw')).fmt n) (obj n) := fun n => by
    by_cases hn : n = o
    · rw [hn, ho]; rfl
    · rw [hf n hn]
  have hlab : ∀ n, lookupKey "label".toList ((v.step obj (.add p o kw)).fmt n) = lookupKey "label".toList ((v.step obj (.add p o kw')).fmt n) :=
    fun n => by
      by_cases hn : n = o
      · dsimp only [Plots2.step]
        rw [if_pos hn, if_pos hn, lookupKey_assocUpdate _ hk, lookupKey_assocUpdate _ hk', hl]
      · rw [hf n hn]
  rw [Plots2.calls, Plots2.calls]
  simp only [hpl, hm, he, hlab]

/-- **C91**, the code disagrees: adding an object to a second plot changes how the first plot draws it. -/
theorem C91_shared_format (w : Plots2) (p q o : ℕ) (k a b : Str) :
    format w [.add p o [(k, a)], .add q o [(k, b)]] o k = some b := by
  simp [format, last, lookupKey]

/-- No call for contour maps, curves and ellipses sets a text. -/
theorem no_text2 {obj : ℕ → Obj2} {F : ℕ → Str → Option Str} {A B C : List ℕ} {meshes curves ells : List Ax2Call}
    (h1 : List.Forall₂ (fun o c => Meshes (F o) (obj o) c) A meshes) (h2 : List.Forall₂ (fun o c => Curves (obj o) c) B curves)
    (h3 : List.Forall₂ (fun o c => Ellipses (F o) (obj o) c) C ells) (c : Ax2Call) (hc : c ∈ meshes ++ curves ++ ells) :
    (∀ t, c ≠ .title t) ∧ (∀ t, c ≠ .xlabel t) ∧ ∀ t, c ≠ .ylabel t := by
  rcases List.mem_append.1 hc with hc | hc
  · rcases List.mem_append.1 hc with hc | hc
    · obtain ⟨o, h⟩ := forall₂_of_mem_right h1 hc
      generalize obj o = a at h
      cases h; exact ⟨fun t => by simp, fun t => by simp, fun t => by simp⟩
    · obtain ⟨o, h⟩ := forall₂_of_mem_right h2 hc
      generalize obj o = a at h
      cases h; exact ⟨fun t => by simp, fun t => by simp, fun t => by simp⟩
  · obtain ⟨o, h⟩ := forall₂_of_mem_right h3 hc
    generalize obj o = a at h
    cases h; exact ⟨fun t => by simp, fun t => by simp, fun t => by simp⟩

/-- **C91**, the code disagrees: in a plot with contour maps the title set by the user is not shown, but the title of the last map. -/
theorem C91_title_lost (obj : ℕ → Obj2) (w : Plots2) (ops : List Plot2Op) (hk : Keywords ops) (p : ℕ) (hp : w.plots p = Plot2D.new)
    (hd : ∀ o ∈ ellipses obj p ops, ∀ e, obj o = .ellipse e → Decomposed e) (cs : List Ax2Call) (im : Option ℕ)
    (h : (w.run obj ops).calls obj p = .ok (cs, im)) (o : ℕ) (l : List ℕ) (hs : Spec2.contours obj p ops = l ++ [o]) (t : Str) :
    Ax2Call.title t ∈ cs ↔ t = (obj o).title := by
  obtain ⟨meshes, curves, ells, title, lx, ly, legend, rfl, h1, h2, h3, _, h5, h6, h6', h7, h7', h8⟩ := C91_drawn obj w ops hk p hp hd cs im h
  obtain ⟨rfl, _⟩ := h5 o l hs
  constructor
  · intro hm
    simp only [List.mem_append] at hm
    rcases hm with ((((((hm | hm) | hm) | hm) | hm) | hm) | hm) | hm
    · exact absurd rfl ((no_text2 h1 h2 h3 _ (by simpa [List.mem_append, or_assoc] using hm)).1 t)
    · simp at hm
    · simp at hm
    · simpa using hm
    · by_cases hx : xlabel p ops = none
      · obtain ⟨_, rfl, _⟩ := h6 hx; simp at hm
      · rw [h6' hx] at hm; simp at hm
    · by_cases hy : ylabel p ops = none
      · obtain ⟨_, rfl, _⟩ := h7 hy; simp at hm
      · rw [h7' hy] at hm; simp at hm
    · simp at hm
    · rcases h8 with ⟨rfl, _⟩ | ⟨rfl, _⟩ <;> simp at hm
  · rintro rfl; simp

/-- **C91**, the code disagrees: a label of the horizontal axis set by the user is never shown. -/
theorem C91_label_lost (obj : ℕ → Obj2) (w : Plots2) (ops : List Plot2Op) (hk : Keywords ops) (p : ℕ) (hp : w.plots p = Plot2D.new)
    (hd : ∀ o ∈ ellipses obj p ops, ∀ e, obj o = .ellipse e → Decomposed e) (cs : List Ax2Call) (im : Option ℕ)
    (h : (w.run obj ops).calls obj p = .ok (cs, im)) (hset : xlabel p ops ≠ none) (t : Str) : Ax2Call.xlabel t ∉ cs := by
  obtain ⟨meshes, curves, ells, title, lx, ly, legend, rfl, h1, h2, h3, h4, h5, _, h6', h7, h7', h8⟩ := C91_drawn obj w ops hk p hp hd cs im h
  obtain rfl := h6' hset
  intro hm
  simp only [List.mem_append] at hm
  rcases hm with ((((((hm | hm) | hm) | hm) | hm) | hm) | hm) | hm
  · exact (no_text2 h1 h2 h3 _ (by simpa [List.mem_append, or_assoc] using hm)).2.1 t rfl
  · simp at hm
  · simp at hm
  · rcases List.eq_nil_or_concat (Spec2.contours obj p ops) with hs | ⟨l, o, hs⟩
    · rw [(h4 hs).1] at hm; simp at hm
    · rw [(h5 o l (by rw [hs, List.concat_eq_append])).1] at hm; simp at hm
  · simp at hm
  · by_cases hy : ylabel p ops = none
    · obtain ⟨_, rfl, _⟩ := h7 hy; simp at hm
    · rw [h7' hy] at hm; simp at hm
  · simp at hm
  · rcases h8 with ⟨rfl, _⟩ | ⟨rfl, _⟩ <;> simp at hm

/-! ## Concrete cases -/

namespace Demo

/-- A contour map, a curve, and an ellipse on axes at 60 degrees. -/
noncomputable def objs2 (o : ℕ) : Obj2 :=
  if o = 0 then .contour [[some 1, some 2]] [[some 0, some 0]] [[some 5, some 7]] "map".toList (some ("H".toList, "en".toList))
  else if o = 1 then .curve [some 1] [some 2] none
  else .ellipse ⟨diagonal ![2, 3], ![2, 3], 1, (1, 0), 60, some "K".toList, none⟩

/-- All plots and formats new. -/
def plots2 : Plots2 := ⟨fun _ => [], fun _ => Plot2D.new⟩

/-- A plot with all of them. -/
def ops2 : List Plot2Op :=
  [.setTitle 0 (some "mine".toList), .add 0 0 [("cmap".toList, "turbo".toList)], .add 0 1 [("c".toList, "red".toList)],
   .add 0 2 [("label".toList, "reso".toList)], .addNone 0 [], .setXlabel 1 (some "energy".toList), .draw 0]

theorem objs2_ellipse {o : ℕ} {e : EllipseObj} (h : objs2 o = .ellipse e) : Decomposed e ∧ ∀ n : ℤ, e.angle ≠ 180 * n := by
  rw [objs2] at h
  split at h
  · exact absurd h (by simp)
  · split at h
    · exact absurd h (by simp)
    · injection h with h
      subst h
      refine ⟨⟨(spd_iff _).2 (PosDef.diagonal fun i => ?_), by simp, by simp⟩, fun n hn => ?_⟩
      · fin_cases i <;> simp
      · dsimp only at hn
        have h1 : (60 : ℝ) = ((180 * n : ℤ) : ℝ) := by push_cast; exact hn
        have h2 : (60 : ℤ) = 180 * n := by exact_mod_cast h1
        omega

theorem keywords2 : Spec2.Keywords ops2 := by
  intro p o kw h
  simp only [ops2, List.mem_cons, Plot2Op.add.injEq, reduceCtorEq, List.not_mem_nil, or_false, false_or] at h
  rcases h with ⟨_, _, rfl⟩ | ⟨_, _, rfl⟩ | ⟨_, _, rfl⟩ <;> simp

theorem contours2 : Spec2.contours objs2 0 ops2 = [0] := by
  rw [Spec2.contours, show added 0 ops2 = [0, 1, 2] from rfl]
  simp [objs2, isContour]

theorem ellipses2 : ellipses objs2 0 ops2 = [2] := by
  rw [ellipses, show added 0 ops2 = [0, 1, 2] from rfl]
  simp [objs2, isEllipse]

/-- The plot can be drawn; the map, its title and the label of the ellipse are shown, and the map is returned. -/
example : ∃ cs, (plots2.run objs2 ops2).calls objs2 0 = .ok (cs, some 0) ∧ Ax2Call.title "map".toList ∈ cs ∧
    Ax2Call.title "mine".toList ∉ cs ∧ Ax2Call.xlabel "K".toList ∈ cs ∧ Ax2Call.ylabel [] ∈ cs ∧ Ax2Call.legend ∈ cs := by
  obtain ⟨⟨cs, im⟩, h⟩ := C91_total objs2 plots2 ops2 0 rfl (fun o _ e he => objs2_ellipse he) fun _ o ho => by
    rw [labelled, ellipses2, if_neg (by simp)] at ho
    obtain rfl := List.mem_singleton.1 ho
    trivial
  have hd : ∀ o ∈ ellipses objs2 0 ops2, ∀ e, objs2 o = .ellipse e → Decomposed e := fun o _ e he => (objs2_ellipse he).1
  have ht := fun t => C91_title_lost objs2 plots2 ops2 keywords2 0 rfl hd cs im h 0 [] contours2 t
  obtain ⟨meshes, curves, ells, title, lx, ly, legend, hcs, h1, h2, h3, _, h5, h6, _, h7, _, h8⟩ :=
    C91_drawn objs2 plots2 ops2 keywords2 0 rfl hd cs im h
  have hlab : (labelled objs2 0 ops2).map objs2 = [objs2 2] := by rw [labelled, ellipses2, if_neg (by simp)]; rfl
  have hXl : ∀ l, XLabel (objs2 2) l ↔ l = "K".toList := fun l => by
    rw [show objs2 2 = .ellipse ⟨diagonal ![2, 3], ![2, 3], 1, (1, 0), 60, some "K".toList, none⟩ from rfl]
    constructor
    · intro h; cases h; rename_i h; exact (Option.some.inj h).symm
    · rintro rfl; exact .ellipse _ _ rfl
  have hYl : ∀ l, ¬ YLabel (objs2 2) l := fun l h => by
    rw [show objs2 2 = .ellipse ⟨diagonal ![2, 3], ![2, 3], 1, (1, 0), 60, some "K".toList, none⟩ from rfl] at h
    cases h; rename_i h; exact absurd h (by simp)
  obtain ⟨tx, rfl, parts, hp1, hp2, rfl⟩ := h6 rfl
  obtain ⟨ty, rfl, parts', hp1', hp2', rfl⟩ := h7 rfl
  rw [hlab] at hp2 hp2'
  have e1 : parts = ["K".toList] := by
    have hk : ∀ l, l ∈ parts ↔ l = "K".toList := fun l => (hp2 l).trans (by simp [hXl])
    cases parts with
    | nil => exact absurd ((hk _).2 rfl) (by simp)
    | cons a r =>
      obtain rfl := (hk a).1 List.mem_cons_self
      cases r with
      | nil => rfl
      | cons b r =>
        obtain rfl := (hk b).1 (by simp)
        exact absurd (List.rel_of_pairwise_cons hp1 List.mem_cons_self) (lt_irrefl _)
  have e2 : parts' = [] := List.eq_nil_iff_forall_not_mem.2 fun l hl => by
    obtain ⟨o, ho, h⟩ := (hp2' l).1 hl
    obtain rfl := List.mem_singleton.1 ho
    exact hYl l h
  have hlg : legend = [.legend] := by
    rcases h8 with ⟨h, _⟩ | ⟨_, h⟩
    · exact h
    · exact absurd (h 2 (by simp [added, ops2])) (by simp [format, last, ops2, lookupKey])
  obtain ⟨-, rfl⟩ := h5 0 [] contours2
  subst e1; subst e2; subst hlg
  refine ⟨cs, h, (ht _).2 rfl, fun hm => absurd ((ht _).1 hm) (by rw [show (objs2 0).title = "map".toList from rfl]; decide), ?_, ?_, ?_⟩
  · rw [hcs]; simp [List.intercalate]
  · rw [hcs]; simp [List.intercalate]
  · rw [hcs]; simp

/-- The colour of the curve does not matter. -/
example : (plots2.run objs2 ([.add 0 0 []] ++ [.add 0 1 [("c".toList, "red".toList)]])).calls objs2 0 =
    (plots2.run objs2 ([.add 0 0 []] ++ [.add 0 1 []])).calls objs2 0 :=
  C91_curve_format objs2 plots2 _ 0 1 [some 1] [some 2] none rfl _ _ (by simp) (by simp) rfl 0

end Demo

end Tavi
