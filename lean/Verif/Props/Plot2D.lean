import Verif.Model.Plot2D
import Verif.Props.PlotShown
import Verif.Props.Frame
import Verif.Props.Misc

/-!
# What a two-dimensional plot shows (C91)
-/

namespace Tavi

open Spec Matrix

/-! ## What the statements refer to, in terms of what has been done -/

namespace Spec2

/-- The objects added to a plot. -/
def added (p : ℕ) (ops : List Plot2Op) : List ℕ := ops.filterMap fun op => match op with
  | .add q o _ => if q = p then some o else none
  | _ => none

/-- The kinds. -/
def isContour : Obj2 → Bool
  | .contour _ _ _ _ _ => true
  | _ => false

/-- The kinds. -/
def isCurve : Obj2 → Bool
  | .curve _ _ _ => true
  | _ => false

/-- The kinds. -/
def isEllipse : Obj2 → Bool
  | .ellipse _ => true
  | _ => false

/-- The contour maps added to a plot. -/
def contours (obj : ℕ → Obj2) (p : ℕ) (ops : List Plot2Op) : List ℕ := (added p ops).filter fun o => isContour (obj o)

/-- The curves added to a plot. -/
def curves (obj : ℕ → Obj2) (p : ℕ) (ops : List Plot2Op) : List ℕ := (added p ops).filter fun o => isCurve (obj o)

/-- The ellipses added to a plot. -/
def ellipses (obj : ℕ → Obj2) (p : ℕ) (ops : List Plot2Op) : List ℕ := (added p ops).filter fun o => isEllipse (obj o)

/-- The last of the values given, or else the value before. -/
def last {α : Type} (f : Plot2Op → Option α) (a : α) (ops : List Plot2Op) : α := ((ops.filterMap f).getLast?).getD a

/-- The format of an object: what was given last, for any plot, and otherwise what it had before. -/
def format (w : Plots2) (ops : List Plot2Op) (o : ℕ) (k : Str) : Option Str :=
  last (fun op => match op with
    | .add _ n kw => if n = o then (lookupKey k kw).map some else none
    | _ => none) (lookupKey k (w.fmt o)) ops

/-- The title set by the user. -/
def title (p : ℕ) : List Plot2Op → Option Str := last (fun op => match op with
  | .setTitle q t => if q = p then some t else none
  | _ => none) (some [])

/-- The label of the horizontal axis set by the user. -/
def xlabel (p : ℕ) : List Plot2Op → Option Str := last (fun op => match op with
  | .setXlabel q t => if q = p then some t else none
  | _ => none) none

/-- The label of the vertical axis set by the user. -/
def ylabel (p : ℕ) : List Plot2Op → Option Str := last (fun op => match op with
  | .setYlabel q t => if q = p then some t else none
  | _ => none) none

/-- The limits of the horizontal axis set by the user. -/
noncomputable def xlim (p : ℕ) : List Plot2Op → Option (ℝ × ℝ) := last (fun op => match op with
  | .setXlim q t => if q = p then some t else none
  | _ => none) none

/-- The limits of the vertical axis set by the user. -/
noncomputable def ylim (p : ℕ) : List Plot2Op → Option (ℝ × ℝ) := last (fun op => match op with
  | .setYlim q t => if q = p then some t else none
  | _ => none) none

/-- Keyword arguments are given once each. -/
def Keywords (ops : List Plot2Op) : Prop := ∀ p o kw, Plot2Op.add p o kw ∈ ops → (kw.map Prod.fst).Nodup

/-- A call draws the contour map with this format. -/
inductive Meshes (F : Str → Option Str) : Obj2 → Ax2Call → Prop
  | mk (x y z : List (List Num)) (t : Str) (l : Option (Str × Str)) (fmt : Fmt) : (∀ k, lookupKey k fmt = F k) →
      Meshes F (.contour x y z t l) (.mesh x y z fmt)

/-- A call draws the curve with its errors. -/
inductive Curves : Obj2 → Ax2Call → Prop
  | mk (x y : List Num) (e : Option (List Num)) : Curves (.curve x y e) (.errorbar x y e)

/-- The eigen-decomposition is right. -/
structure Decomposed (e : EllipseObj) : Prop where
  spd : SPD e.mat
  eig : e.mat * e.evecs = e.evecs * diagonal e.evals
  orth : e.evecsᵀ * e.evecs = 1

/-- The point `q` on axes with this angle between them (in degrees) is drawn at `p`: the first coordinate is counted along the
horizontal axis, the second is the height. -/
def OnAxes (angle : ℝ) (q p : ℝ × ℝ) : Prop :=
  p.2 = q.2 ∧ (p.1 - q.1) * Real.sin (angle / 180 * Real.pi) = q.2 * Real.cos (angle / 180 * Real.pi)

/-- A call draws the ellipse with this format: 128 points of the half-height contour of the resolution function, on axes with the
angle of the ellipse. Angles that differ from 90 degrees by not more than 0.0109 count as 90 degrees. -/
inductive Ellipses (F : Str → Option Str) : Obj2 → Ax2Call → Prop
  | mk (e : EllipseObj) (pts : List (ℝ × ℝ)) (fmt : Fmt) : (∀ k, lookupKey k fmt = F k) → pts.length = 128 →
      (∀ p ∈ pts, ∃ q, (|e.angle - 90| ≤ 0.0109 → p = q) ∧ (¬ |e.angle - 90| ≤ 0.0109 → OnAxes e.angle q p) ∧
        Real.exp (-(1 / 2) * qform e.mat ![q.1 - e.centre.1, q.2 - e.centre.2]) = 1 / 2) →
      Ellipses F (.ellipse e) (.line pts fmt)

/-- Where the labels come from: the ellipses if there are any. -/
def labelled (obj : ℕ → Obj2) (p : ℕ) (ops : List Plot2Op) : List ℕ :=
  if ellipses obj p ops = [] then contours obj p ops else ellipses obj p ops

/-- The label of an object for the horizontal axis. -/
inductive XLabel : Obj2 → Str → Prop
  | contour (x y z : List (List Num)) (t : Str) (l : Str × Str) : XLabel (.contour x y z t (some l)) l.1
  | ellipse (e : EllipseObj) (s : Str) : e.xlabel = some s → XLabel (.ellipse e) s

/-- The label of an object for the vertical axis. -/
inductive YLabel : Obj2 → Str → Prop
  | contour (x y z : List (List Num)) (t : Str) (l : Str × Str) : YLabel (.contour x y z t (some l)) l.2
  | ellipse (e : EllipseObj) (s : Str) : e.ylabel = some s → YLabel (.ellipse e) s

/-- Labels in alphabetical order, each once, with commas between. -/
def Joined2 (lab : Obj2 → Str → Prop) (objs : List Obj2) (t : Str) : Prop :=
  ∃ parts : List Str, parts.Pairwise (· < ·) ∧ (∀ l, l ∈ parts ↔ ∃ o ∈ objs, lab o l) ∧ t = (", ".toList).intercalate parts

end Spec2

open Spec2

/-! ## Histories -/

theorem run2_snoc (obj : ℕ → Obj2) (w : Plots2) (ops : List Plot2Op) (op : Plot2Op) :
    w.run obj (ops ++ [op]) = (w.run obj ops).step obj op := by
  rw [Plots2.run, List.foldl_append]; rfl

theorem last_snoc {α : Type} (f : Plot2Op → Option α) (a : α) (ops : List Plot2Op) (op : Plot2Op) :
    last f a (ops ++ [op]) = (f op).getD (last f a ops) := by
  rw [last, List.filterMap_append]
  cases h : f op with
  | none => rw [List.filterMap_cons_none h, List.filterMap_nil, List.append_nil]; rfl
  | some v => rw [List.filterMap_cons_some h, List.filterMap_nil, List.getLast?_concat]; rfl

theorem format_run (obj : ℕ → Obj2) (w : Plots2) (ops : List Plot2Op) (hk : Keywords ops) (o : ℕ) (k : Str) :
    lookupKey k ((w.run obj ops).fmt o) = format w ops o k := by
  induction ops using List.reverseRecOn with
  | nil => rfl
  | append_singleton ops op ih =>
    have ih := ih fun p o kw h => hk p o kw (List.mem_append_left _ h)
    rw [run2_snoc, format, last_snoc]
    cases op with
    | add p n kw =>
      dsimp only [Plots2.step]
      by_cases hn : o = n
      · subst hn
        rw [if_pos rfl, if_pos rfl, lookupKey_assocUpdate _ (hk p o kw (by simp)), ih]
        cases lookupKey k kw <;> rfl
      · rw [if_neg hn, if_neg (Ne.symm hn), ih]; rfl
    | _ => exact ih

/-- What a plot keeps. -/
structure Keeps2 (obj : ℕ → Obj2) (p : ℕ) (ops : List Plot2Op) (q : Plot2D) : Prop where
  contours : q.contours = contours obj p ops
  curves : q.curves = curves obj p ops
  resos : q.resos = ellipses obj p ops
  title : Spec2.contours obj p ops = [] → q.title = title p ops
  xlabel : q.xlabel = xlabel p ops
  ylabel : q.ylabel = ylabel p ops
  xlim : q.xlim = xlim p ops
  ylim : q.ylim = ylim p ops

theorem added_snoc (p : ℕ) (ops : List Plot2Op) (op : Plot2Op) : added p (ops ++ [op]) = added p ops ++ added p [op] :=
  List.filterMap_append

theorem keeps2_run (obj : ℕ → Obj2) (w : Plots2) (ops : List Plot2Op) (p : ℕ) (hp : w.plots p = Plot2D.new) :
    Keeps2 obj p ops ((w.run obj ops).plots p) := by
  induction ops using List.reverseRecOn with
  | nil =>
    show Keeps2 obj p [] (w.plots p)
    rw [hp]
    exact ⟨rfl, rfl, rfl, fun _ => rfl, rfl, rfl, rfl, rfl⟩
  | append_singleton ops op ih =>
    obtain ⟨h1, h2, h3, h4, h5, h6, h7, h8⟩ := ih
    rw [run2_snoc]
    generalize w.run obj ops = v at *
    have e1 : Spec2.contours obj p (ops ++ [op]) = Spec2.contours obj p ops ++ Spec2.contours obj p [op] := by
      rw [Spec2.contours, added_snoc, List.filter_append]; rfl
    have e2 : Spec2.curves obj p (ops ++ [op]) = Spec2.curves obj p ops ++ Spec2.curves obj p [op] := by
      rw [Spec2.curves, added_snoc, List.filter_append]; rfl
    have e3 : ellipses obj p (ops ++ [op]) = ellipses obj p ops ++ ellipses obj p [op] := by
      rw [ellipses, added_snoc, List.filter_append]; rfl
    have e4 : Spec2.title p (ops ++ [op]) = _ := last_snoc _ _ _ _
    have e5 : Spec2.xlabel p (ops ++ [op]) = _ := last_snoc _ _ _ _
    have e6 : Spec2.ylabel p (ops ++ [op]) = _ := last_snoc _ _ _ _
    have e7 : Spec2.xlim p (ops ++ [op]) = _ := last_snoc _ _ _ _
    have e8 : Spec2.ylim p (ops ++ [op]) = _ := last_snoc _ _ _ _
    have other : ((v.step obj op).plots p = v.plots p → added p [op] = [] → Spec2.title p (ops ++ [op]) = Spec2.title p ops →
        Spec2.xlabel p (ops ++ [op]) = Spec2.xlabel p ops → Spec2.ylabel p (ops ++ [op]) = Spec2.ylabel p ops →
        Spec2.xlim p (ops ++ [op]) = Spec2.xlim p ops → Spec2.ylim p (ops ++ [op]) = Spec2.ylim p ops →
        Keeps2 obj p (ops ++ [op]) ((v.step obj op).plots p)) := by
      intro g0 g1 g4 g5 g6 g7 g8
      have c1 : Spec2.contours obj p [op] = [] := by rw [Spec2.contours, g1]; rfl
      have c2 : Spec2.curves obj p [op] = [] := by rw [Spec2.curves, g1]; rfl
      have c3 : ellipses obj p [op] = [] := by rw [ellipses, g1]; rfl
      rw [g0]
      rw [c1, List.append_nil] at e1
      rw [c2, List.append_nil] at e2
      rw [c3, List.append_nil] at e3
      exact ⟨h1.trans e1.symm, h2.trans e2.symm, h3.trans e3.symm, fun h => (h4 (e1 ▸ h)).trans g4.symm, h5.trans g5.symm,
        h6.trans g6.symm, h7.trans g7.symm, h8.trans g8.symm⟩
    have same : added p [op] = [] → Spec2.contours obj p (ops ++ [op]) = Spec2.contours obj p ops ∧
        Spec2.curves obj p (ops ++ [op]) = Spec2.curves obj p ops ∧ ellipses obj p (ops ++ [op]) = ellipses obj p ops := by
      intro g1
      rw [e1, e2, e3, Spec2.contours, Spec2.curves, ellipses, Spec2.contours, Spec2.curves, ellipses, g1]
      simp
    cases op with
    | add q o kw =>
      by_cases hq : p = q
      · subst hq
        have ha : added p [.add p o kw] = [o] := by simp [added]
        have hs : (v.step obj (.add p o kw)).plots p = (v.plots p).append obj o := if_pos rfl
        rw [hs, Plot2D.append]
        rw [Spec2.contours, Spec2.contours, Spec2.contours, ha] at e1
        rw [Spec2.curves, Spec2.curves, Spec2.curves, ha] at e2
        rw [ellipses, ellipses, ellipses, ha] at e3
        cases ho : obj o with
        | contour x y z t l =>
          simp [ho, isContour, isCurve, isEllipse] at e1 e2 e3
          refine ⟨?_, h2.trans e2.symm, h3.trans e3.symm, ?_, h5.trans e5.symm, h6.trans e6.symm, h7.trans e7.symm, h8.trans e8.symm⟩
          · show (v.plots p).contours ++ [o] = _
            rw [h1]; exact e1.symm
          · intro h; exact absurd (e1.symm.trans h) (by simp)
        | curve x y e =>
          simp [ho, isContour, isCurve, isEllipse] at e1 e2 e3
          refine ⟨h1.trans e1.symm, ?_, h3.trans e3.symm, fun h => (h4 (e1.symm.trans h)).trans e4.symm, h5.trans e5.symm, h6.trans e6.symm,
            h7.trans e7.symm, h8.trans e8.symm⟩
          show (v.plots p).curves ++ [o] = _
          rw [h2]; exact e2.symm
        | ellipse e =>
          simp [ho, isContour, isCurve, isEllipse] at e1 e2 e3
          refine ⟨h1.trans e1.symm, h2.trans e2.symm, ?_, fun h => (h4 (e1.symm.trans h)).trans e4.symm, h5.trans e5.symm, h6.trans e6.symm,
            h7.trans e7.symm, h8.trans e8.symm⟩
          show (v.plots p).resos ++ [o] = _
          rw [h3]; exact e3.symm
      · exact other (if_neg hq) (by simp [added, Ne.symm hq]) e4 e5 e6 e7 e8
    | addNone q kw => exact other rfl rfl e4 e5 e6 e7 e8
    | setTitle q t =>
      by_cases hq : p = q
      · subst hq
        obtain ⟨s1, s2, s3⟩ := same rfl
        dsimp only at e4; rw [if_pos rfl] at e4
        have hs : (v.step obj (.setTitle p t)).plots p = { v.plots p with title := t } := if_pos rfl
        rw [hs]
        exact ⟨h1.trans s1.symm, h2.trans s2.symm, h3.trans s3.symm, fun _ => e4.symm, h5.trans e5.symm, h6.trans e6.symm, h7.trans e7.symm,
          h8.trans e8.symm⟩
      · exact other (if_neg hq) rfl (by dsimp only at e4; rw [if_neg (Ne.symm hq)] at e4; exact e4) e5 e6 e7 e8
    | setXlabel q t =>
      by_cases hq : p = q
      · subst hq
        obtain ⟨s1, s2, s3⟩ := same rfl
        dsimp only at e5; rw [if_pos rfl] at e5
        have hs : (v.step obj (.setXlabel p t)).plots p = { v.plots p with xlabel := t } := if_pos rfl
        rw [hs]
        exact ⟨h1.trans s1.symm, h2.trans s2.symm, h3.trans s3.symm, fun h => (h4 (s1 ▸ h)).trans e4.symm, e5.symm, h6.trans e6.symm,
          h7.trans e7.symm, h8.trans e8.symm⟩
      · exact other (if_neg hq) rfl e4 (by dsimp only at e5; rw [if_neg (Ne.symm hq)] at e5; exact e5) e6 e7 e8
    | setYlabel q t =>
      by_cases hq : p = q
      · subst hq
        obtain ⟨s1, s2, s3⟩ := same rfl
        dsimp only at e6; rw [if_pos rfl] at e6
        have hs : (v.step obj (.setYlabel p t)).plots p = { v.plots p with ylabel := t } := if_pos rfl
        rw [hs]
        exact ⟨h1.trans s1.symm, h2.trans s2.symm, h3.trans s3.symm, fun h => (h4 (s1 ▸ h)).trans e4.symm, h5.trans e5.symm, e6.symm,
          h7.trans e7.symm, h8.trans e8.symm⟩
      · exact other (if_neg hq) rfl e4 e5 (by dsimp only at e6; rw [if_neg (Ne.symm hq)] at e6; exact e6) e7 e8
    | setXlim q t =>
      by_cases hq : p = q
      · subst hq
        obtain ⟨s1, s2, s3⟩ := same rfl
        dsimp only at e7; rw [if_pos rfl] at e7
        have hs : (v.step obj (.setXlim p t)).plots p = { v.plots p with xlim := t } := if_pos rfl
        rw [hs]
        exact ⟨h1.trans s1.symm, h2.trans s2.symm, h3.trans s3.symm, fun h => (h4 (s1 ▸ h)).trans e4.symm, h5.trans e5.symm, h6.trans e6.symm,
          e7.symm, h8.trans e8.symm⟩
      · exact other (if_neg hq) rfl e4 e5 e6 (by dsimp only at e7; rw [if_neg (Ne.symm hq)] at e7; exact e7) e8
    | setYlim q t =>
      by_cases hq : p = q
      · subst hq
        obtain ⟨s1, s2, s3⟩ := same rfl
        dsimp only at e8; rw [if_pos rfl] at e8
        have hs : (v.step obj (.setYlim p t)).plots p = { v.plots p with ylim := t } := if_pos rfl
        rw [hs]
        exact ⟨h1.trans s1.symm, h2.trans s2.symm, h3.trans s3.symm, fun h => (h4 (s1 ▸ h)).trans e4.symm, h5.trans e5.symm, h6.trans e6.symm,
          h7.trans e7.symm, e8.symm⟩
      · exact other (if_neg hq) rfl e4 e5 e6 e7 (by dsimp only at e8; rw [if_neg (Ne.symm hq)] at e8; exact e8)
    | draw q =>
      by_cases hq : p = q
      · subst hq
        obtain ⟨s1, s2, s3⟩ := same rfl
        have hs : (v.step obj (.draw p)).plots p = { v.plots p with title := (v.plots p).titleAfter obj } := if_pos rfl
        rw [hs]
        refine ⟨h1.trans s1.symm, h2.trans s2.symm, h3.trans s3.symm, fun h => ?_, h5.trans e5.symm, h6.trans e6.symm,
          h7.trans e7.symm, h8.trans e8.symm⟩
        rw [s1] at h
        show (v.plots p).titleAfter obj = _
        rw [Plot2D.titleAfter, h1, h]
        exact (h4 h).trans e4.symm
      · exact other (if_neg hq) rfl e4 e5 e6 e7 e8

end Tavi
