import Verif.Model.Plot
import Verif.Lemmas.Assoc
import Verif.Lemmas.Numpy
import Verif.Props.Group
import Verif.Props.Filter

/-!
# What a plot shows (C88)
-/

namespace Tavi

open Spec

/-! ## What the statements refer to, in terms of what has been done -/

/-- The scan data added to a plot. -/
def Spec.scansAdded (p : ℕ) (ops : List PlotOp) : List ℕ := ops.filterMap fun op => match op with
  | .addScan q o _ => if q = p then some o else none
  | _ => none

/-- The curves of fits added to a plot. -/
def Spec.fitsAdded (p : ℕ) (ops : List PlotOp) : List (List Num × List Num × Fmt) := ops.filterMap fun op => match op with
  | .addFit q x y kw => if q = p then some (x, y, kw) else none
  | _ => none

/-- The resolution bars added to a plot. -/
def Spec.barsAdded (p : ℕ) (ops : List PlotOp) : List ((ℝ × ℝ) × ℝ × Fmt) := ops.filterMap fun op => match op with
  | .addBar q pos w kw => if q = p then some (pos, w, kw) else none
  | _ => none

/-- The value an operation gives for a key of the format of some data, if it adds the data to one of the plots in `P`. -/
def Spec.gives (P : ℕ → Prop) [DecidablePred P] (o : ℕ) (k : Str) : PlotOp → Option Str
  | .addScan q n kw => if P q ∧ n = o then lookupKey k kw else none
  | _ => none

/-- The last value given for a key of the format of some data, when adding it to any of the plots in `P`. -/
def Spec.lastGiven (P : ℕ → Prop) [DecidablePred P] (o : ℕ) (k : Str) (ops : List PlotOp) : Option Str :=
  (ops.filterMap (gives P o k)).getLast?

/-- The format of some data: what was given last, for any plot, and otherwise what it had before. -/
def Spec.formatOf (w : PlotWorld) (ops : List PlotOp) (o : ℕ) (k : Str) : Option Str :=
  (lastGiven (fun _ => True) o k ops).or (lookupKey k (w.data o).fmt)

/-- The title set by the user. -/
def Spec.titleSet (p : ℕ) (ops : List PlotOp) : Option Str := ((ops.filterMap fun op => match op with
  | .setTitle q t => if q = p then some t else none
  | _ => none).getLast?).getD (some [])

/-- The label of the horizontal axis set by the user. -/
def Spec.xlabelSet (p : ℕ) (ops : List PlotOp) : Option Str := ((ops.filterMap fun op => match op with
  | .setXlabel q t => if q = p then some t else none
  | _ => none).getLast?).getD none

/-- The label of the vertical axis set by the user. -/
def Spec.ylabelSet (p : ℕ) (ops : List PlotOp) : Option Str := ((ops.filterMap fun op => match op with
  | .setYlabel q t => if q = p then some t else none
  | _ => none).getLast?).getD none

/-- The limits of the horizontal axis set by the user. -/
noncomputable def Spec.xlimSet (p : ℕ) (ops : List PlotOp) : Option (ℝ × ℝ) := ((ops.filterMap fun op => match op with
  | .setXlim q t => if q = p then some t else none
  | _ => none).getLast?).getD none

/-- The limits of the vertical axis set by the user. -/
noncomputable def Spec.ylimSet (p : ℕ) (ops : List PlotOp) : Option (ℝ × ℝ) := ((ops.filterMap fun op => match op with
  | .setYlim q t => if q = p then some t else none
  | _ => none).getLast?).getD none

/-- Keyword arguments are given once each. -/
def Spec.Keywords : PlotOp → Prop
  | .addScan _ _ kw => (kw.map Prod.fst).Nodup
  | .addFit _ _ _ kw => (kw.map Prod.fst).Nodup
  | .addBar _ _ _ kw => (kw.map Prod.fst).Nodup
  | _ => True

/-- A call draws the data with this format. -/
inductive Spec.Draws (d : PlotData) (F : Str → Option Str) : AxCall → Prop
  | line (fmt : Fmt) : d.err = none → (∀ k, lookupKey k fmt = F k) → Draws d F (.line d.x d.y fmt)
  | errorbar (e : List Num) (fmt : Fmt) : d.err = some e → (∀ k, lookupKey k fmt = F k) → Draws d F (.errorbar d.x d.y e fmt)

/-- A call draws the curve of a fit. -/
inductive Spec.DrawsFit : List Num × List Num × Fmt → AxCall → Prop
  | line (x y : List Num) (kw fmt : Fmt) : (∀ k, lookupKey k fmt = lookupKey k kw) → DrawsFit (x, y, kw) (.line x y fmt)

/-- A call draws a resolution bar, as wide as the resolution, with caps unless other ones are asked for. -/
inductive Spec.DrawsBar : (ℝ × ℝ) × ℝ × Fmt → AxCall → Prop
  | bar (pos : ℝ × ℝ) (w e : ℝ) (kw fmt : Fmt) : 2 * e = w →
      (∀ k, lookupKey k fmt = (lookupKey k kw).or (if k = "capsize".toList then some "3".toList else none)) →
      DrawsBar (pos, w, kw) (.bar pos e fmt)

/-! ## Histories -/

theorem run_snoc (w : PlotWorld) (ops : List PlotOp) (op : PlotOp) : w.run (ops ++ [op]) = (w.run ops).step op := by
  rw [PlotWorld.run, List.foldl_append]; rfl

theorem at_plots (w : PlotWorld) (p : ℕ) (f : Plot1D → Plot1D) (q : ℕ) :
    (w.at p f).plots q = if q = p then f (w.plots q) else w.plots q := rfl

theorem run_snoc_gives {P : ℕ → Prop} [DecidablePred P] {o : ℕ} {k : Str} (ops : List PlotOp) {op : PlotOp} :
    lastGiven P o k (ops ++ [op]) = (gives P o k op).or (lastGiven P o k ops) := by
  rw [lastGiven, List.filterMap_append]
  cases h : gives P o k op with
  | none => rw [List.filterMap_cons_none h, List.filterMap_nil, List.append_nil]; rfl
  | some v => rw [List.filterMap_cons_some h, List.filterMap_nil, List.getLast?_concat]; rfl

theorem data_run (w : PlotWorld) (ops : List PlotOp) (hk : ∀ op ∈ ops, Keywords op) (o : ℕ) :
    ((w.run ops).data o).x = (w.data o).x ∧ ((w.run ops).data o).y = (w.data o).y ∧ ((w.run ops).data o).err = (w.data o).err ∧
    ((w.run ops).data o).title = (w.data o).title ∧ ((w.run ops).data o).xlabel = (w.data o).xlabel ∧
    ((w.run ops).data o).ylabel = (w.data o).ylabel ∧ ∀ k, lookupKey k ((w.run ops).data o).fmt = formatOf w ops o k := by
  induction ops using List.reverseRecOn with
  | nil => exact ⟨rfl, rfl, rfl, rfl, rfl, rfl, fun k => rfl⟩
  | append_singleton ops op ih =>
    obtain ⟨a, b, c, d, e, f, g⟩ := ih fun op h => hk op (List.mem_append_left _ h)
    have hop := hk op (by simp)
    rw [run_snoc]
    cases op with
    | addScan p n kw =>
      by_cases hn : o = n
      · subst hn
        have hd : ((w.run ops).step (.addScan p o kw)).data o =
            { (w.run ops).data o with fmt := assocUpdate ((w.run ops).data o).fmt kw } := if_pos rfl
        rw [hd]
        refine ⟨a, b, c, d, e, f, fun k => ?_⟩
        show lookupKey k (assocUpdate _ kw) = _
        rw [lookupKey_assocUpdate _ hop, g k, formatOf, formatOf, run_snoc_gives, gives, if_pos ⟨trivial, rfl⟩, Option.or_assoc]
      · have hd : ((w.run ops).step (.addScan p n kw)).data o = (w.run ops).data o := if_neg hn
        rw [hd]
        refine ⟨a, b, c, d, e, f, fun k => ?_⟩
        rw [g k, formatOf, formatOf, run_snoc_gives, gives, if_neg (fun h => hn h.2.symm)]; rfl
    | _ =>
      refine ⟨a, b, c, d, e, f, fun k => (g k).trans ?_⟩
      rw [formatOf, formatOf, run_snoc_gives]; rfl

/-- The fit kept for a curve. -/
def KeptFit (t : List Num × List Num × Fmt) (f : PlotFit) : Prop := f.x = t.1 ∧ f.y = t.2.1 ∧ ∀ k, lookupKey k f.fmt = lookupKey k t.2.2

/-- The bar kept for a resolution bar. -/
def KeptBar (t : (ℝ × ℝ) × ℝ × Fmt) (b : PlotBar) : Prop := b.pos = t.1 ∧ b.fwhm = t.2.1 ∧
  ∀ k, lookupKey k b.capped.fmt = (lookupKey k t.2.2).or (if k = "capsize".toList then some "3".toList else none)

theorem capped_lookup (b : PlotBar) (k : Str) :
    lookupKey k b.capped.fmt = (lookupKey k b.fmt).or (if k = "capsize".toList then some "3".toList else none) := by
  rw [PlotBar.capped]
  split
  · rename_i h
    split
    · rename_i hk
      obtain ⟨v, hv⟩ := Option.isSome_iff_exists.1 h
      rw [hk, hv]; rfl
    · rw [Option.or_none]
  · rename_i h
    rw [lookupKey_assocSet]
    split
    · rename_i hk
      rw [hk, Option.not_isSome_iff_eq_none.1 h]; rfl
    · rw [Option.or_none]

theorem capped_capped (b : PlotBar) : b.capped.pos = b.pos ∧ b.capped.fwhm = b.fwhm := by
  rw [PlotBar.capped]; split <;> exact ⟨rfl, rfl⟩

theorem forall₂_snoc {α β : Type} {R : α → β → Prop} {l : List α} {r : List β} {a : α} {b : β} (h : List.Forall₂ R l r) (hab : R a b) :
    List.Forall₂ R (l ++ [a]) (r ++ [b]) := List.rel_append h (.cons hab .nil)

/-- What a plot keeps. -/
structure Keeps (p : ℕ) (ops : List PlotOp) (q : Plot1D) : Prop where
  scans : q.scans = scansAdded p ops
  fits : List.Forall₂ KeptFit (fitsAdded p ops) q.fits
  bars : List.Forall₂ KeptBar (barsAdded p ops) q.bars
  title : scansAdded p ops = [] → q.title = titleSet p ops
  xlabel : q.xlabel = xlabelSet p ops
  ylabel : q.ylabel = ylabelSet p ops
  xlim : q.xlim = xlimSet p ops
  ylim : q.ylim = ylimSet p ops

theorem keeps_title {p : ℕ} {ops : List PlotOp} {v : PlotWorld} (h : Keeps p ops (v.plots p)) (q : ℕ) (t : Option Str) :
    Keeps p (ops ++ [.setTitle q t]) ((v.step (.setTitle q t)).plots p) := by
  obtain ⟨h1, h2, h3, h4, h5, h6, h7, h8⟩ := h
  simp only [PlotWorld.step, at_plots]
  have e1 : scansAdded p (ops ++ [.setTitle q t]) = scansAdded p ops := by simp [scansAdded]
  have e2 : fitsAdded p (ops ++ [.setTitle q t]) = fitsAdded p ops := by simp [fitsAdded]
  have e3 : barsAdded p (ops ++ [.setTitle q t]) = barsAdded p ops := by simp [barsAdded]
  have e4 : titleSet p (ops ++ [.setTitle q t]) = if q = p then t else titleSet p ops := by split <;> simp [titleSet, *]
  have e5 : xlabelSet p (ops ++ [.setTitle q t]) = xlabelSet p ops := by simp [xlabelSet]
  have e6 : ylabelSet p (ops ++ [.setTitle q t]) = ylabelSet p ops := by simp [ylabelSet]
  have e7 : xlimSet p (ops ++ [.setTitle q t]) = xlimSet p ops := by simp [xlimSet]
  have e8 : ylimSet p (ops ++ [.setTitle q t]) = ylimSet p ops := by simp [ylimSet]
  by_cases hq : p = q
  · rw [if_pos hq]
    refine ⟨h1.trans e1.symm, by rw [e2]; exact h2, by rw [e3]; exact h3, fun h => ?_, ?_, ?_, ?_, ?_⟩
    · rw [e4, if_pos hq.symm]
    · rw [e5]; exact h5
    · rw [e6]; exact h6
    · rw [e7]; exact h7
    · rw [e8]; exact h8
  · rw [if_neg hq]
    refine ⟨h1.trans e1.symm, by rw [e2]; exact h2, by rw [e3]; exact h3, fun h => ?_, ?_, ?_, ?_, ?_⟩
    · rw [e4, if_neg (Ne.symm hq)]; exact h4 (e1 ▸ h)
    · rw [e5]; exact h5
    · rw [e6]; exact h6
    · rw [e7]; exact h7
    · rw [e8]; exact h8

theorem keeps_xlabel {p : ℕ} {ops : List PlotOp} {v : PlotWorld} (h : Keeps p ops (v.plots p)) (q : ℕ) (t : Option Str) :
    Keeps p (ops ++ [.setXlabel q t]) ((v.step (.setXlabel q t)).plots p) := by
  obtain ⟨h1, h2, h3, h4, h5, h6, h7, h8⟩ := h
  simp only [PlotWorld.step, at_plots]
  have e1 : scansAdded p (ops ++ [.setXlabel q t]) = scansAdded p ops := by simp [scansAdded]
  have e2 : fitsAdded p (ops ++ [.setXlabel q t]) = fitsAdded p ops := by simp [fitsAdded]
  have e3 : barsAdded p (ops ++ [.setXlabel q t]) = barsAdded p ops := by simp [barsAdded]
  have e4 : titleSet p (ops ++ [.setXlabel q t]) = titleSet p ops := by simp [titleSet]
  have e5 : xlabelSet p (ops ++ [.setXlabel q t]) = if q = p then t else xlabelSet p ops := by split <;> simp [xlabelSet, *]
  have e6 : ylabelSet p (ops ++ [.setXlabel q t]) = ylabelSet p ops := by simp [ylabelSet]
  have e7 : xlimSet p (ops ++ [.setXlabel q t]) = xlimSet p ops := by simp [xlimSet]
  have e8 : ylimSet p (ops ++ [.setXlabel q t]) = ylimSet p ops := by simp [ylimSet]
  by_cases hq : p = q
  · rw [if_pos hq]
    refine ⟨h1.trans e1.symm, by rw [e2]; exact h2, by rw [e3]; exact h3, fun h => ?_, ?_, ?_, ?_, ?_⟩
    · rw [e4]; exact h4 (e1 ▸ h)
    · rw [e5, if_pos hq.symm]
    · rw [e6]; exact h6
    · rw [e7]; exact h7
    · rw [e8]; exact h8
  · rw [if_neg hq]
    refine ⟨h1.trans e1.symm, by rw [e2]; exact h2, by rw [e3]; exact h3, fun h => ?_, ?_, ?_, ?_, ?_⟩
    · rw [e4]; exact h4 (e1 ▸ h)
    · rw [e5, if_neg (Ne.symm hq)]; exact h5
    · rw [e6]; exact h6
    · rw [e7]; exact h7
    · rw [e8]; exact h8

theorem keeps_ylabel {p : ℕ} {ops : List PlotOp} {v : PlotWorld} (h : Keeps p ops (v.plots p)) (q : ℕ) (t : Option Str) :
    Keeps p (ops ++ [.setYlabel q t]) ((v.step (.setYlabel q t)).plots p) := by
  obtain ⟨h1, h2, h3, h4, h5, h6, h7, h8⟩ := h
  simp only [PlotWorld.step, at_plots]
  have e1 : scansAdded p (ops ++ [.setYlabel q t]) = scansAdded p ops := by simp [scansAdded]
  have e2 : fitsAdded p (ops ++ [.setYlabel q t]) = fitsAdded p ops := by simp [fitsAdded]
  have e3 : barsAdded p (ops ++ [.setYlabel q t]) = barsAdded p ops := by simp [barsAdded]
  have e4 : titleSet p (ops ++ [.setYlabel q t]) = titleSet p ops := by simp [titleSet]
  have e5 : xlabelSet p (ops ++ [.setYlabel q t]) = xlabelSet p ops := by simp [xlabelSet]
  have e6 : ylabelSet p (ops ++ [.setYlabel q t]) = if q = p then t else ylabelSet p ops := by split <;> simp [ylabelSet, *]
  have e7 : xlimSet p (ops ++ [.setYlabel q t]) = xlimSet p ops := by simp [xlimSet]
  have e8 : ylimSet p (ops ++ [.setYlabel q t]) = ylimSet p ops := by simp [ylimSet]
  by_cases hq : p = q
  · rw [if_pos hq]
    refine ⟨h1.trans e1.symm, by rw [e2]; exact h2, by rw [e3]; exact h3, fun h => ?_, ?_, ?_, ?_, ?_⟩
    · rw [e4]; exact h4 (e1 ▸ h)
    · rw [e5]; exact h5
    · rw [e6, if_pos hq.symm]
    · rw [e7]; exact h7
    · rw [e8]; exact h8
  · rw [if_neg hq]
    refine ⟨h1.trans e1.symm, by rw [e2]; exact h2, by rw [e3]; exact h3, fun h => ?_, ?_, ?_, ?_, ?_⟩
    · rw [e4]; exact h4 (e1 ▸ h)
    · rw [e5]; exact h5
    · rw [e6, if_neg (Ne.symm hq)]; exact h6
    · rw [e7]; exact h7
    · rw [e8]; exact h8

theorem keeps_xlim {p : ℕ} {ops : List PlotOp} {v : PlotWorld} (h : Keeps p ops (v.plots p)) (q : ℕ) (t : Option (ℝ × ℝ)) :
    Keeps p (ops ++ [.setXlim q t]) ((v.step (.setXlim q t)).plots p) := by
  obtain ⟨h1, h2, h3, h4, h5, h6, h7, h8⟩ := h
  simp only [PlotWorld.step, at_plots]
  have e1 : scansAdded p (ops ++ [.setXlim q t]) = scansAdded p ops := by simp [scansAdded]
  have e2 : fitsAdded p (ops ++ [.setXlim q t]) = fitsAdded p ops := by simp [fitsAdded]
  have e3 : barsAdded p (ops ++ [.setXlim q t]) = barsAdded p ops := by simp [barsAdded]
  have e4 : titleSet p (ops ++ [.setXlim q t]) = titleSet p ops := by simp [titleSet]
  have e5 : xlabelSet p (ops ++ [.setXlim q t]) = xlabelSet p ops := by simp [xlabelSet]
  have e6 : ylabelSet p (ops ++ [.setXlim q t]) = ylabelSet p ops := by simp [ylabelSet]
  have e7 : xlimSet p (ops ++ [.setXlim q t]) = if q = p then t else xlimSet p ops := by split <;> simp [xlimSet, *]
  have e8 : ylimSet p (ops ++ [.setXlim q t]) = ylimSet p ops := by simp [ylimSet]
  by_cases hq : p = q
  · rw [if_pos hq]
    refine ⟨h1.trans e1.symm, by rw [e2]; exact h2, by rw [e3]; exact h3, fun h => ?_, ?_, ?_, ?_, ?_⟩
    · rw [e4]; exact h4 (e1 ▸ h)
    · rw [e5]; exact h5
    · rw [e6]; exact h6
    · rw [e7, if_pos hq.symm]
    · rw [e8]; exact h8
  · rw [if_neg hq]
    refine ⟨h1.trans e1.symm, by rw [e2]; exact h2, by rw [e3]; exact h3, fun h => ?_, ?_, ?_, ?_, ?_⟩
    · rw [e4]; exact h4 (e1 ▸ h)
    · rw [e5]; exact h5
    · rw [e6]; exact h6
    · rw [e7, if_neg (Ne.symm hq)]; exact h7
    · rw [e8]; exact h8

theorem keeps_ylim {p : ℕ} {ops : List PlotOp} {v : PlotWorld} (h : Keeps p ops (v.plots p)) (q : ℕ) (t : Option (ℝ × ℝ)) :
    Keeps p (ops ++ [.setYlim q t]) ((v.step (.setYlim q t)).plots p) := by
  obtain ⟨h1, h2, h3, h4, h5, h6, h7, h8⟩ := h
  simp only [PlotWorld.step, at_plots]
  have e1 : scansAdded p (ops ++ [.setYlim q t]) = scansAdded p ops := by simp [scansAdded]
  have e2 : fitsAdded p (ops ++ [.setYlim q t]) = fitsAdded p ops := by simp [fitsAdded]
  have e3 : barsAdded p (ops ++ [.setYlim q t]) = barsAdded p ops := by simp [barsAdded]
  have e4 : titleSet p (ops ++ [.setYlim q t]) = titleSet p ops := by simp [titleSet]
  have e5 : xlabelSet p (ops ++ [.setYlim q t]) = xlabelSet p ops := by simp [xlabelSet]
  have e6 : ylabelSet p (ops ++ [.setYlim q t]) = ylabelSet p ops := by simp [ylabelSet]
  have e7 : xlimSet p (ops ++ [.setYlim q t]) = xlimSet p ops := by simp [xlimSet]
  have e8 : ylimSet p (ops ++ [.setYlim q t]) = if q = p then t else ylimSet p ops := by split <;> simp [ylimSet, *]
  by_cases hq : p = q
  · rw [if_pos hq]
    refine ⟨h1.trans e1.symm, by rw [e2]; exact h2, by rw [e3]; exact h3, fun h => ?_, ?_, ?_, ?_, ?_⟩
    · rw [e4]; exact h4 (e1 ▸ h)
    · rw [e5]; exact h5
    · rw [e6]; exact h6
    · rw [e7]; exact h7
    · rw [e8, if_pos hq.symm]
  · rw [if_neg hq]
    refine ⟨h1.trans e1.symm, by rw [e2]; exact h2, by rw [e3]; exact h3, fun h => ?_, ?_, ?_, ?_, ?_⟩
    · rw [e4]; exact h4 (e1 ▸ h)
    · rw [e5]; exact h5
    · rw [e6]; exact h6
    · rw [e7]; exact h7
    · rw [e8, if_neg (Ne.symm hq)]; exact h8

theorem plot_run (w : PlotWorld) (ops : List PlotOp) (hk : ∀ op ∈ ops, Keywords op) (p : ℕ) (hp : w.plots p = Plot1D.new) :
    Keeps p ops ((w.run ops).plots p) := by
  induction ops using List.reverseRecOn with
  | nil =>
    show Keeps p [] (w.plots p)
    rw [hp]
    exact ⟨rfl, .nil, .nil, fun _ => rfl, rfl, rfl, rfl, rfl⟩
  | append_singleton ops op ih =>
    have ih := ih fun op h => hk op (List.mem_append_left _ h)
    have hop := hk op (by simp)
    rw [run_snoc]
    obtain ⟨h1, h2, h3, h4, h5, h6, h7, h8⟩ := ih
    generalize w.run ops = v at *
    have key : ∀ q : ℕ, q = p ∨ q ≠ p := fun q => em _
    cases op with
    | addScan q o kw =>
      have hs : scansAdded p (ops ++ [.addScan q o kw]) = scansAdded p ops ++ (if q = p then [o] else []) := by
        rw [scansAdded, List.filterMap_append]; split <;> simp [scansAdded, *]
      have hr : fitsAdded p (ops ++ [.addScan q o kw]) = fitsAdded p ops ∧ barsAdded p (ops ++ [.addScan q o kw]) = barsAdded p ops ∧
          titleSet p (ops ++ [.addScan q o kw]) = titleSet p ops ∧ xlabelSet p (ops ++ [.addScan q o kw]) = xlabelSet p ops ∧
          ylabelSet p (ops ++ [.addScan q o kw]) = ylabelSet p ops ∧ xlimSet p (ops ++ [.addScan q o kw]) = xlimSet p ops ∧
          ylimSet p (ops ++ [.addScan q o kw]) = ylimSet p ops := by
        refine ⟨?_, ?_, ?_, ?_, ?_, ?_, ?_⟩ <;> simp [fitsAdded, barsAdded, titleSet, xlabelSet, ylabelSet, xlimSet, ylimSet]
      obtain ⟨r1, r2, r3, r4, r5, r6, r7⟩ := hr
      simp only [PlotWorld.step, at_plots]
      rcases key q with rfl | hq
      · rw [if_pos rfl] at hs ⊢
        exact ⟨by rw [hs, ← h1], by rw [r1]; exact h2, by rw [r2]; exact h3, fun h => by rw [hs] at h; simp at h,
          by rw [r4]; exact h5, by rw [r5]; exact h6, by rw [r6]; exact h7, by rw [r7]; exact h8⟩
      · rw [if_neg hq, List.append_nil] at hs
        rw [if_neg (Ne.symm hq)]
        exact ⟨by rw [hs, ← h1], by rw [r1]; exact h2, by rw [r2]; exact h3, fun h => by rw [r3]; exact h4 (hs ▸ h),
          by rw [r4]; exact h5, by rw [r5]; exact h6, by rw [r6]; exact h7, by rw [r7]; exact h8⟩
    | addFit q x y kw =>
      simp only [PlotWorld.step, at_plots]
      rcases key q with rfl | hq
      · rw [if_pos rfl]
        refine ⟨?_, ?_, ?_, ?_, ?_, ?_, ?_, ?_⟩
        · rw [show v.plots q = v.plots q from rfl]; exact h1.trans (by simp [scansAdded])
        · have : fitsAdded q (ops ++ [.addFit q x y kw]) = fitsAdded q ops ++ [(x, y, kw)] := by simp [fitsAdded]
          rw [this]
          refine forall₂_snoc h2 ⟨rfl, rfl, fun k => ?_⟩
          show lookupKey k (assocUpdate [] kw) = _
          rw [lookupKey_assocUpdate _ hop]
          exact Option.or_none
        · simpa [barsAdded] using h3
        · intro h; exact (h4 (by simpa [scansAdded] using h)).trans (by simp [titleSet])
        · exact h5.trans (by simp [xlabelSet])
        · exact h6.trans (by simp [ylabelSet])
        · exact h7.trans (by simp [xlimSet])
        · exact h8.trans (by simp [ylimSet])
      · rw [if_neg (Ne.symm hq)]
        refine ⟨?_, ?_, ?_, ?_, ?_, ?_, ?_, ?_⟩
        · exact h1.trans (by simp [scansAdded])
        · have : fitsAdded p (ops ++ [.addFit q x y kw]) = fitsAdded p ops := by simp [fitsAdded, hq]
          rw [this]; exact h2
        · simpa [barsAdded] using h3
        · intro h; exact (h4 (by simpa [scansAdded] using h)).trans (by simp [titleSet])
        · exact h5.trans (by simp [xlabelSet])
        · exact h6.trans (by simp [ylabelSet])
        · exact h7.trans (by simp [xlimSet])
        · exact h8.trans (by simp [ylimSet])
    | addBar q pos e kw =>
      simp only [PlotWorld.step, at_plots]
      rcases key q with rfl | hq
      · rw [if_pos rfl]
        refine ⟨?_, ?_, ?_, ?_, ?_, ?_, ?_, ?_⟩
        · exact h1.trans (by simp [scansAdded])
        · simpa [fitsAdded] using h2
        · have : barsAdded q (ops ++ [.addBar q pos e kw]) = barsAdded q ops ++ [(pos, e, kw)] := by simp [barsAdded]
          rw [this]
          refine forall₂_snoc h3 ⟨rfl, rfl, fun k => ?_⟩
          rw [capped_lookup]
          show (lookupKey k (assocUpdate [] kw)).or _ = _
          rw [lookupKey_assocUpdate _ hop]
          exact congrArg (Option.or · _) Option.or_none
        · intro h; exact (h4 (by simpa [scansAdded] using h)).trans (by simp [titleSet])
        · exact h5.trans (by simp [xlabelSet])
        · exact h6.trans (by simp [ylabelSet])
        · exact h7.trans (by simp [xlimSet])
        · exact h8.trans (by simp [ylimSet])
      · rw [if_neg (Ne.symm hq)]
        refine ⟨?_, ?_, ?_, ?_, ?_, ?_, ?_, ?_⟩
        · exact h1.trans (by simp [scansAdded])
        · simpa [fitsAdded] using h2
        · have : barsAdded p (ops ++ [.addBar q pos e kw]) = barsAdded p ops := by simp [barsAdded, hq]
          rw [this]; exact h3
        · intro h; exact (h4 (by simpa [scansAdded] using h)).trans (by simp [titleSet])
        · exact h5.trans (by simp [xlabelSet])
        · exact h6.trans (by simp [ylabelSet])
        · exact h7.trans (by simp [xlimSet])
        · exact h8.trans (by simp [ylimSet])
    | draw q =>
      simp only [PlotWorld.step, at_plots]
      have hb : barsAdded p (ops ++ [.draw q]) = barsAdded p ops := by simp [barsAdded]
      have hf : fitsAdded p (ops ++ [.draw q]) = fitsAdded p ops := by simp [fitsAdded]
      have hs : scansAdded p (ops ++ [.draw q]) = scansAdded p ops := by simp [scansAdded]
      rcases key q with rfl | hq
      · rw [if_pos rfl]
        refine ⟨h1.trans hs.symm, by rw [hf]; exact h2, ?_, ?_, ?_, ?_, ?_, ?_⟩
        · rw [hb]
          show List.Forall₂ KeptBar _ ((v.plots q).bars.map PlotBar.capped)
          rw [List.forall₂_map_right_iff]
          refine h3.imp fun t b hb => ⟨(capped_capped b).1.trans hb.1, (capped_capped b).2.trans hb.2.1, fun k => ?_⟩
          rw [capped_lookup, hb.2.2, Option.or_assoc, Option.or_self]
        · intro h
          rw [hs] at h
          show v.titleAfter (v.plots q) = _
          rw [PlotWorld.titleAfter, h1, h]
          exact (h4 h).trans (by simp [titleSet])
        · exact h5.trans (by simp [xlabelSet])
        · exact h6.trans (by simp [ylabelSet])
        · exact h7.trans (by simp [xlimSet])
        · exact h8.trans (by simp [ylimSet])
      · rw [if_neg (Ne.symm hq)]
        refine ⟨h1.trans hs.symm, by rw [hf]; exact h2, by rw [hb]; exact h3, ?_, ?_, ?_, ?_, ?_⟩
        · intro h; exact (h4 (hs ▸ h)).trans (by simp [titleSet])
        · exact h5.trans (by simp [xlabelSet])
        · exact h6.trans (by simp [ylabelSet])
        · exact h7.trans (by simp [xlimSet])
        · exact h8.trans (by simp [ylimSet])
    | setTitle q t => exact keeps_title ⟨h1, h2, h3, h4, h5, h6, h7, h8⟩ q t
    | setXlabel q t => exact keeps_xlabel ⟨h1, h2, h3, h4, h5, h6, h7, h8⟩ q t
    | setYlabel q t => exact keeps_ylabel ⟨h1, h2, h3, h4, h5, h6, h7, h8⟩ q t
    | setXlim q t => exact keeps_xlim ⟨h1, h2, h3, h4, h5, h6, h7, h8⟩ q t
    | setYlim q t => exact keeps_ylim ⟨h1, h2, h3, h4, h5, h6, h7, h8⟩ q t

end Tavi
