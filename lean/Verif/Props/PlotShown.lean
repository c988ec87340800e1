import Verif.Props.Plot

/-!
# What a plot shows, continued (C88): the theorems
-/

namespace Tavi

open Spec

/-- The texts under an axis: the labels of the scans, each once, in some order, with commas between. -/
def Spec.Joined (labels : List Str) (t : Str) : Prop :=
  ∃ parts : List Str, parts.Nodup ∧ (∀ l, l ∈ parts ↔ l ∈ labels) ∧ t = (",".toList).intercalate parts

/-- The calls for the label of an axis. -/
def Spec.Labels (mk : Str → AxCall) (labels : List (Option Str)) (cs : List AxCall) : Prop :=
  ∃ ls t, labels = ls.map some ∧ Joined ls t ∧ cs = [mk t]

theorem intercalate_eq (sep : Str) (l : List Str) : joinStr sep l = sep.intercalate l := by
  induction l with
  | nil => rfl
  | cons a l ih =>
    cases l with
    | nil => simp [joinStr, List.intercalate]
    | cons b l =>
      rw [joinStr, ih]
      simp [List.intercalate, List.intersperse]

theorem labelCall_ok {order : List Str → List Str} (horder : ∀ l, (order l).Nodup ∧ ∀ a, a ∈ order l ↔ a ∈ l) {user : Option Str}
    {labels : List (Option Str)} {mk : Str → AxCall} {cs : List AxCall} (h : labelCall order user labels mk = .ok cs) :
    (user = none ∧ Labels mk labels cs) ∨ (∃ u, user = some u) ∧ cs = [] := by
  cases user with
  | some u => exact .inr ⟨⟨u, rfl⟩, (Except.ok.inj h).symm⟩
  | none =>
    refine .inl ⟨rfl, ?_⟩
    rw [labelCall] at h
    obtain ⟨ls, h1, rfl⟩ := map_eq_ok.1 h
    refine ⟨ls, _, ?_, ⟨order ls, (horder ls).1, (horder ls).2, intercalate_eq _ _⟩, rfl⟩
    have h2 := mapM_ok_inv h1
    clear h h1
    induction h2 with
    | nil => rfl
    | cons hab _ ih => rw [List.map_cons, ih, need_eq_ok.1 hab]

theorem labelCall_total {order : List Str → List Str} {user : Option Str} {labels : List (Option Str)} {mk : Str → AxCall}
    (h : user = none → ∀ l ∈ labels, ∃ t, l = some t) : ∃ cs, labelCall order user labels mk = .ok cs := by
  cases user with
  | some u => exact ⟨[], rfl⟩
  | none =>
    refine ⟨_, map_eq_ok.2 ⟨_, mapM_ok (g := fun l => l.getD []) fun l hl => ?_, rfl⟩⟩
    obtain ⟨t, rfl⟩ := h rfl l hl
    rfl

theorem labelCall_fails {order : List Str → List Str} {labels : List (Option Str)} {mk : Str → AxCall} (h : none ∈ labels) :
    labelCall order none labels mk = .error .attributeError := by
  have key : (labels.mapM fun l => need l .attributeError) = .error .attributeError := by
    induction labels with
    | nil => exact absurd h (by simp)
    | cons a l ih =>
      rw [List.mapM_cons]
      cases a with
      | none => rfl
      | some a => rw [ih (by simpa using h)]; rfl
  rw [labelCall, key]; rfl

/-- The number of the last scan, or nothing. -/
theorem titleAfter_eq {w : PlotWorld} {q : Plot1D} :
    w.titleAfter q = if h : q.scans = [] then q.title else some (w.data (q.scans.getLast h)).title := by
  rw [PlotWorld.titleAfter]
  split
  · rename_i o ho
    have hne : q.scans ≠ [] := fun h => by rw [h] at ho; exact absurd ho (by simp)
    rw [dif_neg hne]
    rw [List.getLast?_eq_getLast_of_ne_nil hne] at ho
    rw [Option.some.inj ho]
  · rename_i ho
    rw [dif_pos (List.getLast?_eq_none_iff.1 ho)]

theorem forall₂_map_of {α β γ : Type} {R : α → β → Prop} {S : α → γ → Prop} {f : β → γ} {l : List α} {r : List β}
    (h : List.Forall₂ R l r) (hf : ∀ a b, R a b → S a (f b)) : List.Forall₂ S l (r.map f) := by
  rw [List.forall₂_map_right_iff]
  exact h.imp hf

/-- **C88**: what drawing a plot calls, after any history of operations on any number of plots. -/
theorem C88_drawn (order : List Str → List Str) (horder : ∀ l, (order l).Nodup ∧ ∀ a, a ∈ order l ↔ a ∈ l) (w : PlotWorld)
    (ops : List PlotOp) (hk : ∀ op ∈ ops, Keywords op) (p : ℕ) (hp : w.plots p = Plot1D.new) (cs : List AxCall)
    (h : (w.run ops).calls order p = .ok cs) :
    ∃ scans fits bars title lx ly legend,
      cs = scans ++ fits ++ bars ++ ((xlimSet p ops).map AxCall.xlim).toList ++ ((ylimSet p ops).map AxCall.ylim).toList ++
        title ++ lx ++ ly ++ [.grid] ++ legend ∧
      List.Forall₂ (fun o c => Draws (w.data o) (formatOf w ops o) c) (scansAdded p ops) scans ∧
      List.Forall₂ DrawsFit (fitsAdded p ops) fits ∧
      List.Forall₂ DrawsBar (barsAdded p ops) bars ∧
      (scansAdded p ops = [] → title = ((titleSet p ops).map AxCall.title).toList) ∧
      (∀ o l, scansAdded p ops = l ++ [o] → title = [.title (w.data o).title]) ∧
      (xlabelSet p ops = none → Labels .xlabel ((scansAdded p ops).map fun o => (w.data o).xlabel) lx) ∧
      (xlabelSet p ops ≠ none → lx = []) ∧
      (ylabelSet p ops = none → Labels .ylabel ((scansAdded p ops).map fun o => (w.data o).ylabel) ly) ∧
      (ylabelSet p ops ≠ none → ly = []) ∧
      ((legend = [.legend] ∧ ((∃ o ∈ scansAdded p ops, (formatOf w ops o "label".toList).isSome) ∨
          ∃ t ∈ fitsAdded p ops, (lookupKey "label".toList t.2.2).isSome)) ∨
        (legend = [] ∧ (∀ o ∈ scansAdded p ops, formatOf w ops o "label".toList = none) ∧
          ∀ t ∈ fitsAdded p ops, lookupKey "label".toList t.2.2 = none)) := by
  obtain ⟨h1, h2, h3, h4, h5, h6, h7, h8⟩ := plot_run w ops hk p hp
  rw [PlotWorld.calls] at h
  obtain ⟨lx, hx, h⟩ := py_bind_eq_ok.1 h
  obtain ⟨ly, hy, h⟩ := py_bind_eq_ok.1 h
  have hcs := (Except.ok.inj h).symm
  clear h
  rw [h7, h8, h1] at hcs
  rw [h1, h5] at hx
  rw [h1, h6] at hy
  rw [show ((scansAdded p ops).map fun o => ((w.run ops).data o).xlabel) = (scansAdded p ops).map fun o => (w.data o).xlabel from
    List.map_congr_left fun o _ => (data_run w ops hk o).2.2.2.2.1] at hx
  rw [show ((scansAdded p ops).map fun o => ((w.run ops).data o).ylabel) = (scansAdded p ops).map fun o => (w.data o).ylabel from
    List.map_congr_left fun o _ => (data_run w ops hk o).2.2.2.2.2.1] at hy
  refine ⟨_, _, _, _, lx, ly, _, hcs, ?_, ?_, ?_, ?_, ?_, ?_, ?_, ?_, ?_, ?_⟩
  · rw [List.forall₂_map_right_iff, List.forall₂_same]
    intro o _
    obtain ⟨a, b, c, _, _, _, g⟩ := data_run w ops hk o
    rw [scanCall]
    split
    · rename_i he; rw [a, b]; exact .line _ (c ▸ he) g
    · rename_i e he; rw [a, b]; exact .errorbar e _ (c ▸ he) g
  · exact forall₂_map_of h2 fun ⟨x, y, kw⟩ f ⟨e1, e2, e3⟩ => by
      dsimp only at e1 e2 e3; rw [e1, e2]; exact .line x y kw _ e3
  · exact forall₂_map_of h3 fun ⟨pos, e, kw⟩ b ⟨e1, e2, e3⟩ => by
      dsimp only at e1 e2 e3; rw [e1, e2]; exact .bar pos e _ kw _ (by ring) e3
  · intro he
    rw [titleAfter_eq, dif_pos (h1.trans he), h4 he]
  · intro o l he
    have hne : ((w.run ops).plots p).scans ≠ [] := by rw [h1, he]; simp
    rw [titleAfter_eq, dif_neg hne]
    have : ((w.run ops).plots p).scans.getLast hne = o := by simp [h1, he]
    rw [this, (data_run w ops hk o).2.2.2.1]; rfl
  · intro hn
    rcases labelCall_ok horder hx with ⟨_, h⟩ | ⟨⟨u, hu⟩, _⟩
    · exact h
    · rw [hn] at hu; exact absurd hu (by simp)
  · intro hn
    rcases labelCall_ok horder hx with ⟨hu, _⟩ | ⟨_, h⟩
    · exact absurd hu hn
    · exact h
  · intro hn
    rcases labelCall_ok horder hy with ⟨_, h⟩ | ⟨⟨u, hu⟩, _⟩
    · exact h
    · rw [hn] at hu; exact absurd hu (by simp)
  · intro hn
    rcases labelCall_ok horder hy with ⟨hu, _⟩ | ⟨_, h⟩
    · exact absurd hu hn
    · exact h
  · have hs : ∀ o, lookupKey "label".toList ((w.run ops).data o).fmt = formatOf w ops o "label".toList := fun o =>
      (data_run w ops hk o).2.2.2.2.2.2 _
    have hf : ((w.run ops).plots p).fits.any (fun f => (lookupKey "label".toList f.fmt).isSome) =
        (fitsAdded p ops).any fun t => (lookupKey "label".toList t.2.2).isSome := by
      clear hcs h1 h3 h4 h5 h6 h7 h8 hx hy
      generalize fitsAdded p ops = L at h2
      generalize ((w.run ops).plots p).fits = M at h2
      induction h2 with
      | nil => rfl
      | cons hab _ ih => rw [List.any_cons, List.any_cons, ih, hab.2.2]
    have hg : ((scansAdded p ops).map fun o => ((w.run ops).data o).fmt).any (fun f => (lookupKey "label".toList f).isSome) =
        (scansAdded p ops).any fun o => (formatOf w ops o "label".toList).isSome := by
      rw [List.any_map]
      refine congrArg (List.any _) (funext fun o => ?_)
      exact congrArg Option.isSome (hs o)
    rw [hf, hg]
    split
    · rename_i hc
      refine .inl ⟨rfl, ?_⟩
      rw [Bool.or_eq_true] at hc
      rcases hc with hc | hc
      · exact .inl (List.any_eq_true.1 hc)
      · exact .inr (List.any_eq_true.1 hc)
    · rename_i hc
      rw [Bool.or_eq_true, not_or] at hc
      refine .inr ⟨rfl, fun o ho => ?_, fun t ht => ?_⟩
      · by_contra hn
        exact hc.1 (List.any_eq_true.2 ⟨o, ho, Option.isSome_iff_ne_none.2 hn⟩)
      · by_contra hn
        exact hc.2 (List.any_eq_true.2 ⟨t, ht, Option.isSome_iff_ne_none.2 hn⟩)

/-- **C88**: a plot can be drawn as soon as its scans have labels, or the labels are set by the user. -/
theorem C88_total (order : List Str → List Str) (w : PlotWorld) (ops : List PlotOp) (hk : ∀ op ∈ ops, Keywords op) (p : ℕ)
    (hp : w.plots p = Plot1D.new)
    (hx : xlabelSet p ops = none → ∀ o ∈ scansAdded p ops, ∃ t, (w.data o).xlabel = some t)
    (hy : ylabelSet p ops = none → ∀ o ∈ scansAdded p ops, ∃ t, (w.data o).ylabel = some t) :
    ∃ cs, (w.run ops).calls order p = .ok cs := by
  obtain ⟨h1, _, _, _, h5, h6, _, _⟩ := plot_run w ops hk p hp
  obtain ⟨lx, hlx⟩ := labelCall_total (order := order) (mk := .xlabel) (user := ((w.run ops).plots p).xlabel)
    (labels := ((w.run ops).plots p).scans.map fun o => ((w.run ops).data o).xlabel) fun hu l hl => by
      obtain ⟨o, ho, rfl⟩ := List.mem_map.1 hl
      rw [(data_run w ops hk o).2.2.2.2.1]
      exact hx (h5 ▸ hu) o (h1 ▸ ho)
  obtain ⟨ly, hly⟩ := labelCall_total (order := order) (mk := .ylabel) (user := ((w.run ops).plots p).ylabel)
    (labels := ((w.run ops).plots p).scans.map fun o => ((w.run ops).data o).ylabel) fun hu l hl => by
      obtain ⟨o, ho, rfl⟩ := List.mem_map.1 hl
      rw [(data_run w ops hk o).2.2.2.2.2.1]
      exact hy (h6 ▸ hu) o (h1 ▸ ho)
  exact ⟨_, by rw [PlotWorld.calls, hlx, py_bind_ok, hly, py_bind_ok]⟩

/-- **C88**: scan data that has not been given labels cannot be drawn, unless the user sets them. -/
theorem C88_no_labels (order : List Str → List Str) (w : PlotWorld) (ops : List PlotOp) (hk : ∀ op ∈ ops, Keywords op) (p : ℕ)
    (hp : w.plots p = Plot1D.new) (hx : xlabelSet p ops = none) (o : ℕ) (ho : o ∈ scansAdded p ops) (hl : (w.data o).xlabel = none) :
    (w.run ops).calls order p = .error .attributeError := by
  obtain ⟨h1, _, _, _, h5, _, _, _⟩ := plot_run w ops hk p hp
  rw [PlotWorld.calls, h5, hx, labelCall_fails]
  · rfl
  · rw [h1, List.mem_map]
    exact ⟨o, ho, by rw [(data_run w ops hk o).2.2.2.2.1, hl]⟩

/-- **C88** (partial): if the data is not added to other plots, its format is the one given to this plot. Missing: data added to
several plots, `C88_shared_format`. -/
theorem C88_format_partial (w : PlotWorld) (ops : List PlotOp) (p o : ℕ) (k : Str)
    (honly : ∀ q kw, PlotOp.addScan q o kw ∈ ops → q = p) :
    formatOf w ops o k = (lastGiven (· = p) o k ops).or (lookupKey k (w.data o).fmt) := by
  rw [formatOf, lastGiven, lastGiven]
  congr 2
  refine List.filterMap_congr fun op hop => ?_
  cases op with
  | addScan q n kw =>
    rw [gives, gives]
    by_cases hn : n = o
    · subst hn
      rw [if_pos ⟨trivial, rfl⟩, if_pos ⟨honly q kw hop, rfl⟩]
    · rw [if_neg (fun h => hn h.2), if_neg (fun h => hn h.2)]
  | _ => rfl

/-- **C88**: scans with the same label have it under the axis. -/
theorem C88_same_label (mk : Str → AxCall) (labels : List (Option Str)) (cs : List AxCall) (ℓ : Str) (hne : labels ≠ [])
    (hall : ∀ l ∈ labels, l = some ℓ) (h : Labels mk labels cs) : cs = [mk ℓ] := by
  obtain ⟨ls, t, rfl, ⟨parts, hnd, hmem, rfl⟩, rfl⟩ := h
  have hℓ : ∀ l ∈ ls, l = ℓ := fun l hl => Option.some.inj (hall _ (List.mem_map_of_mem hl))
  have : parts = [ℓ] := by
    cases ls with
    | nil => exact absurd rfl hne
    | cons a ls =>
      obtain rfl := hℓ a List.mem_cons_self
      cases parts with
      | nil => exact absurd ((hmem a).2 List.mem_cons_self) (by simp)
      | cons b parts =>
        obtain rfl := hℓ b ((hmem b).1 List.mem_cons_self)
        cases parts with
        | nil => rfl
        | cons c parts =>
          obtain rfl := hℓ c ((hmem c).1 (by simp))
          exact absurd hnd (by simp)
  rw [this]
  simp [List.intercalate]

/-! ## The code disagrees -/

/-- **C88**, the code disagrees: adding data to a second plot changes how the first plot draws it. -/
theorem C88_shared_format (w : PlotWorld) (p q o : ℕ) (k a b : Str) :
    formatOf w [.addScan p o [(k, a)], .addScan q o [(k, b)]] o k = some b := by
  simp [formatOf, lastGiven, gives, lookupKey]

theorem forall₂_of_mem_right {α β : Type} {R : α → β → Prop} {l : List α} {r : List β} (h : List.Forall₂ R l r) {b : β} (hb : b ∈ r) :
    ∃ a, R a b := by
  induction h with
  | nil => exact absurd hb (by simp)
  | cons h1 _ ih =>
    rcases List.mem_cons.1 hb with rfl | hb
    · exact ⟨_, h1⟩
    · exact ih hb

/-- No call of the scans, fits and bars sets a text. -/
theorem no_text {w : PlotWorld} {ops : List PlotOp} {L : List ℕ} {F : List (List Num × List Num × Fmt)} {B : List ((ℝ × ℝ) × ℝ × Fmt)}
    {scans fits bars : List AxCall}
    (h1 : List.Forall₂ (fun o c => Draws (w.data o) (formatOf w ops o) c) L scans) (h2 : List.Forall₂ DrawsFit F fits)
    (h3 : List.Forall₂ DrawsBar B bars) (c : AxCall) (hc : c ∈ scans ++ fits ++ bars) :
    (∀ t, c ≠ .title t) ∧ (∀ t, c ≠ .xlabel t) ∧ ∀ t, c ≠ .ylabel t := by
  rcases List.mem_append.1 hc with hc | hc
  · rcases List.mem_append.1 hc with hc | hc
    · obtain ⟨o, h⟩ := forall₂_of_mem_right h1 hc
      cases h <;> exact ⟨fun t => by simp, fun t => by simp, fun t => by simp⟩
    · obtain ⟨o, h⟩ := forall₂_of_mem_right h2 hc
      cases h; exact ⟨fun t => by simp, fun t => by simp, fun t => by simp⟩
  · obtain ⟨o, h⟩ := forall₂_of_mem_right h3 hc
    cases h; exact ⟨fun t => by simp, fun t => by simp, fun t => by simp⟩

/-- **C88**, the code disagrees: in a plot with scans the title set by the user is not shown, but the title of the last scan. -/
theorem C88_title_lost (order : List Str → List Str) (horder : ∀ l, (order l).Nodup ∧ ∀ a, a ∈ order l ↔ a ∈ l) (w : PlotWorld)
    (ops : List PlotOp) (hk : ∀ op ∈ ops, Keywords op) (p : ℕ) (hp : w.plots p = Plot1D.new) (cs : List AxCall)
    (h : (w.run ops).calls order p = .ok cs) (o : ℕ) (l : List ℕ) (hs : scansAdded p ops = l ++ [o]) (t : Str)
    (ht : t ≠ (w.data o).title) : AxCall.title (w.data o).title ∈ cs ∧ AxCall.title t ∉ cs := by
  obtain ⟨scans, fits, bars, title, lx, ly, legend, rfl, h1, h2, h3, _, h5, h6, h6', h7, h7', h8⟩ := C88_drawn order horder w ops hk p hp cs h
  obtain rfl := h5 o l hs
  refine ⟨by simp, fun hm => ?_⟩
  simp only [List.mem_append] at hm
  rcases hm with ((((((hm | hm) | hm) | hm) | hm) | hm) | hm) | hm
  · exact (no_text h1 h2 h3 _ (by simpa [List.mem_append, or_assoc] using hm)).1 t rfl
  · simp at hm
  · simp at hm
  · simp at hm; exact ht hm
  · by_cases hx : xlabelSet p ops = none
    · obtain ⟨_, _, _, _, rfl⟩ := h6 hx; simp at hm
    · rw [h6' hx] at hm; simp at hm
  · by_cases hy : ylabelSet p ops = none
    · obtain ⟨_, _, _, _, rfl⟩ := h7 hy; simp at hm
    · rw [h7' hy] at hm; simp at hm
  · simp at hm
  · rcases h8 with ⟨rfl, _⟩ | ⟨rfl, _⟩ <;> simp at hm

/-- **C88**, the code disagrees: a label of the horizontal axis set by the user is never shown. -/
theorem C88_label_lost (order : List Str → List Str) (horder : ∀ l, (order l).Nodup ∧ ∀ a, a ∈ order l ↔ a ∈ l) (w : PlotWorld)
    (ops : List PlotOp) (hk : ∀ op ∈ ops, Keywords op) (p : ℕ) (hp : w.plots p = Plot1D.new) (cs : List AxCall)
    (h : (w.run ops).calls order p = .ok cs) (hset : xlabelSet p ops ≠ none) (t : Str) : AxCall.xlabel t ∉ cs := by
  obtain ⟨scans, fits, bars, title, lx, ly, legend, rfl, h1, h2, h3, h4, h5, _, h6', h7, h7', h8⟩ := C88_drawn order horder w ops hk p hp cs h
  obtain rfl := h6' hset
  intro hm
  simp only [List.mem_append] at hm
  rcases hm with ((((((hm | hm) | hm) | hm) | hm) | hm) | hm) | hm
  · exact (no_text h1 h2 h3 _ (by simpa [List.mem_append, or_assoc] using hm)).2.1 t rfl
  · simp at hm
  · simp at hm
  · rcases List.eq_nil_or_concat (scansAdded p ops) with hs | ⟨l, o, hs⟩
    · rw [h4 hs] at hm; simp at hm
    · rw [h5 o l (by rw [hs, List.concat_eq_append])] at hm; simp at hm
  · simp at hm
  · by_cases hy : ylabelSet p ops = none
    · obtain ⟨_, _, _, _, rfl⟩ := h7 hy; simp at hm
    · rw [h7' hy] at hm; simp at hm
  · simp at hm
  · rcases h8 with ⟨rfl, _⟩ | ⟨rfl, _⟩ <;> simp at hm

/-! ## Concrete cases -/

namespace Demo

/-- Two sets of scan data. -/
noncomputable def plotDemo : PlotWorld where
  data o := if o = 0 then ⟨[some 1, some 2], [some 4, some 9], some [some 2, some 3], "scan 34".toList, some "en".toList, some "detector".toList, []⟩
    else ⟨[some 1, some 3], [some 5, some 7], none, "scan 35".toList, some "en".toList, some "detector".toList, []⟩
  plots _ := Plot1D.new

theorem plotDemo_x (o : ℕ) : (plotDemo.data o).xlabel = some "en".toList := by
  unfold plotDemo; dsimp only; split <;> rfl

theorem plotDemo_y (o : ℕ) : (plotDemo.data o).ylabel = some "detector".toList := by
  unfold plotDemo; dsimp only; split <;> rfl

theorem plotDemo_title : (plotDemo.data 1).title = "scan 35".toList := rfl

/-- Both scans in one plot, the first in a second plot, a fit, a bar, a title. -/
def plotOps : List PlotOp :=
  [.setTitle 0 (some "mine".toList), .addScan 0 0 [("fmt".toList, "o".toList)], .addScan 0 1 [("c".toList, "red".toList)],
   .addScan 1 0 [("fmt".toList, "s".toList)], .addFit 0 [some 1] [some 4] [("label".toList, "fit".toList)],
   .addBar 0 (1, 2) 3 [], .draw 0, .setXlabel 1 (some "energy".toList)]

theorem plotOps_keywords : ∀ op ∈ plotOps, Keywords op := by
  intro op h
  simp only [plotOps, List.mem_cons, List.not_mem_nil, or_false] at h
  rcases h with rfl | rfl | rfl | rfl | rfl | rfl | rfl | rfl <;> simp [Keywords]

theorem dedup_order (l : List Str) : l.dedup.Nodup ∧ ∀ a, a ∈ l.dedup ↔ a ∈ l := ⟨l.nodup_dedup, fun _ => List.mem_dedup⟩

/-- The first plot can be drawn, and shows the title of the second scan. -/
example : ∃ cs, (plotDemo.run plotOps).calls List.dedup 0 = .ok cs ∧ AxCall.title "scan 35".toList ∈ cs ∧
    AxCall.title "mine".toList ∉ cs := by
  obtain ⟨cs, h⟩ := C88_total List.dedup plotDemo plotOps plotOps_keywords 0 rfl
    (fun _ o _ => ⟨_, plotDemo_x o⟩) (fun _ o _ => ⟨_, plotDemo_y o⟩)
  obtain ⟨h1, h2⟩ := C88_title_lost List.dedup dedup_order plotDemo plotOps plotOps_keywords 0 rfl cs h 1 [0] (by simp [scansAdded, plotOps])
    "mine".toList (by rw [plotDemo_title]; decide)
  exact ⟨cs, h, plotDemo_title ▸ h1, h2⟩

/-- The first scan is drawn with the format given to the second plot. -/
example : formatOf plotDemo plotOps 0 "fmt".toList = some "s".toList := rfl

/-- The bar has its width and caps, the axis the label of both scans, and there is a legend. -/
example : ∃ cs, (plotDemo.run plotOps).calls List.dedup 0 = .ok cs ∧ AxCall.xlabel "en".toList ∈ cs ∧ AxCall.legend ∈ cs := by
  obtain ⟨cs, h⟩ := C88_total List.dedup plotDemo plotOps plotOps_keywords 0 rfl
    (fun _ o _ => ⟨_, plotDemo_x o⟩) (fun _ o _ => ⟨_, plotDemo_y o⟩)
  obtain ⟨scans, fits, bars, title, lx, ly, legend, hcs, _, _, _, _, _, h6, _, _, _, h8⟩ :=
    C88_drawn List.dedup dedup_order plotDemo plotOps plotOps_keywords 0 rfl cs h
  have hlx := C88_same_label .xlabel _ lx "en".toList (by simp [scansAdded, plotOps])
    (fun l hl => by
      obtain ⟨o, _, rfl⟩ := List.mem_map.1 hl
      exact plotDemo_x o) (h6 (by simp [xlabelSet, plotOps]))
  have hlg : legend = [.legend] := by
    rcases h8 with ⟨h, _⟩ | ⟨_, _, h⟩
    · exact h
    · exact absurd (h ([some 1], [some 4], [("label".toList, "fit".toList)]) (by simp [fitsAdded, plotOps])) (by simp [lookupKey])
  subst hlx; subst hlg
  exact ⟨cs, h, by rw [hcs]; simp, by rw [hcs]; simp⟩

/-- The label of the second plot is lost. -/
example (cs : List AxCall) (h : (plotDemo.run plotOps).calls List.dedup 1 = .ok cs) : AxCall.xlabel "energy".toList ∉ cs :=
  C88_label_lost List.dedup dedup_order plotDemo plotOps plotOps_keywords 1 rfl cs h (by simp [xlabelSet, plotOps]) _

/-- The second scan is in one plot only. -/
example : formatOf plotDemo plotOps 1 "c".toList = (lastGiven (· = 0) 1 "c".toList plotOps).or none :=
  C88_format_partial plotDemo plotOps 0 1 _ (fun q kw h => by simp [plotOps] at h; exact h.1)

/-- Data without labels. -/
example : (PlotWorld.run ⟨fun _ => ⟨[], [], none, [], none, none, []⟩, fun _ => Plot1D.new⟩ [.addScan 0 0 []]).calls List.dedup 0 =
    .error .attributeError :=
  C88_no_labels _ _ _ (by simp [Keywords]) 0 rfl rfl 0 (by simp [scansAdded]) rfl

end Demo

end Tavi
