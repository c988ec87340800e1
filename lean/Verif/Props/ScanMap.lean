import Verif.Model.ScanMap
import Verif.Props.ScanPlotUse
import Verif.Props.HkleUse
import Verif.Props.Misc

/-!
# What maps of loaded scans show is what their files say (C95)
-/

namespace Tavi

open Spec

/-! ## What the statements refer to -/

/-- A scan of a group with points of some kind. -/
structure Spec.MemberOf (P : Type) where
  scan : ScanObj
  file : SpiceFile
  number : ℕ
  pts : List P

/-- The scan is the one loaded from the file. -/
def Spec.MemberOf.Loaded {P : Type} (g : MemberOf P) : Prop :=
  ∃ iso xml fs dir file ds, Spec.Loaded iso xml fs dir file g.file ds (scanName g.number) g.scan

/-- The points of a file for a map: positions, counts and a channel to normalise to. -/
def Spec.FilePoints2 (f : SpiceFile) (x y z ch : Str) (pts : List Pt2) : Prop :=
  FileColumn f x (pts.map (·.x)) ∧ FileColumn f y (pts.map (·.y)) ∧ FileColumn f z (pts.map (·.z)) ∧ FileColumn f ch (pts.map (·.n))

/-- The points of a file for a cut: Miller indices, energy transfer, counts and a channel to normalise to. -/
def Spec.FilePointsH (f : SpiceFile) (z ch : Str) (pts : List HPt) : Prop :=
  FileColumn f "qh".toList (pts.map (·.h)) ∧ FileColumn f "qk".toList (pts.map (·.k)) ∧ FileColumn f "ql".toList (pts.map (·.l)) ∧
    FileColumn f "en".toList (pts.map (·.e)) ∧ FileColumn f z (pts.map (·.z)) ∧ FileColumn f ch (pts.map (·.n))

/-- The title of a group. -/
def Spec.numbersTitle {P : Type} (l : List (MemberOf P)) : Str :=
  "Combined scans: ".toList ++ l.flatMap fun g => decStr (g.number % 10000) ++ " ".toList

/-- A map is labelled with the axes and the normalisation; the title starts with the label of the counts. -/
structure Spec.MapLabelled (fmt : Val → Str) (title x y z : Str) (v : ℝ) (ch : Str) (r : LabelledMap) : Prop where
  xlabel : r.xlabel = x
  ylabel : r.ylabel = y
  zlabel : r.zlabel = perText fmt z v ch
  title : r.title = perText fmt z v ch ++ ", ".toList ++ title

/-! ## The members as columns -/

theorem labelled_ok (fmt : Val → Str) (d : Map2D) (x y z : Str) (vc : ℝ × Str) (title : Str) :
    ∃ r, d.labelled fmt x y z vc title = .ok r ∧ r.data = d ∧ MapLabelled fmt title x y z vc.1 vc.2 r := by
  refine ⟨⟨d, x, y, perText fmt z vc.1 vc.2, perText fmt z vc.1 vc.2 ++ ", ".toList ++ title⟩, ?_, rfl, rfl, rfl, rfl, rfl⟩
  unfold Map2D.labelled
  rw [countLabel_num]
  rfl

section
variable {P : Type} {l : List (MemberOf P)} {M : Scan → List P → Prop}

/-- The points of a view; for columns that determine them. -/
theorem pts_of (M : Scan → List P → Prop) (hu : ∀ s p q, M s p → M s q → p = q) :
    ∃ pts : Scan → List P, ∀ {sc p}, M sc p → pts sc = p := by
  classical
  refine ⟨fun sc => if h : ∃ p, M sc p then h.choose else [], fun {sc p} hm => ?_⟩
  have hex : ∃ p, M sc p := ⟨p, hm⟩
  dsimp only
  rw [dif_pos hex]
  exact hu _ _ _ hex.choose_spec hm

theorem members_views (hu : ∀ s p q, M s p → M s q → p = q) {ch0 : Str} {v0 : ℝ}
    (h : ∀ g ∈ l, g.Loaded ∧ (∃ x0 y0, NormalHeader g.file x0 y0 ch0 v0) ∧ ∀ i, M (g.scan.view i) g.pts) :
    ∃ is : List ScanInfo, (l.map (·.scan)).mapM scanInfo = .ok is ∧ groupTitle is = numbersTitle l ∧
      (is.all fun i => i.preset.plain) = true ∧
      (List.zipWith ScanObj.view (l.map (·.scan)) is).length = l.length ∧
      ∃ pts : Scan → List P, (List.zipWith ScanObj.view (l.map (·.scan)) is).map pts = l.map (·.pts) ∧
        ∀ sc ∈ List.zipWith ScanObj.view (l.map (·.scan)) is, M sc (pts sc) ∧ sc.preset = .normal ch0 v0 ∧
          ∃ g ∈ l, ∃ y0, NormalHeader g.file sc.defX y0 ch0 v0 := by
  obtain ⟨pts, hpts⟩ := pts_of M hu
  suffices ∃ is : List ScanInfo, (l.map (·.scan)).mapM scanInfo = .ok is ∧
      (is.flatMap fun i => intStr i.scanNum ++ " ".toList) = l.flatMap (fun g => decStr (g.number % 10000) ++ " ".toList) ∧
      (is.all fun i => i.preset.plain) = true ∧
      (List.zipWith ScanObj.view (l.map (·.scan)) is).length = l.length ∧
      (List.zipWith ScanObj.view (l.map (·.scan)) is).map pts = l.map (·.pts) ∧
        ∀ sc ∈ List.zipWith ScanObj.view (l.map (·.scan)) is, M sc (pts sc) ∧ sc.preset = .normal ch0 v0 ∧
          ∃ g ∈ l, ∃ y0, NormalHeader g.file sc.defX y0 ch0 v0 by
    obtain ⟨is, h1, h2, h3, h4, h5, h6⟩ := this
    exact ⟨is, h1, congrArg ("Combined scans: ".toList ++ ·) h2, h3, h4, pts, h5, h6⟩
  induction l with
  | nil => exact ⟨[], rfl, rfl, rfl, rfl, rfl, by simp⟩
  | cons g l ih =>
    obtain ⟨is, h1, h2, h3, h4, h5, h6⟩ := ih fun g hg => h g (List.mem_cons_of_mem _ hg)
    obtain ⟨⟨iso, xml, fs, dir, file, ds, hl⟩, ⟨x0, y0, hd⟩, hp⟩ := h g List.mem_cons_self
    obtain ⟨i, hi, hx, _, hnum, _, hpre⟩ := normal_info hl hd
    have hm := hp i
    refine ⟨i :: is, ?_, ?_, ?_, ?_, ?_, ?_⟩
    · rw [List.map_cons, List.mapM_cons, hi, py_bind_ok, h1, py_bind_ok]; rfl
    · rw [List.flatMap_cons, List.flatMap_cons, h2, hnum, intStr_nat]
    · rw [List.all_cons, h3, hpre]; rfl
    · rw [List.map_cons, List.zipWith_cons_cons, List.length_cons, List.length_cons, h4]
    · rw [List.map_cons, List.zipWith_cons_cons, List.map_cons, List.map_cons, h5, hpts hm]
    · rw [List.map_cons, List.zipWith_cons_cons]
      intro sc hsc
      rcases List.mem_cons.1 hsc with rfl | hsc
      · refine ⟨by rw [hpts hm]; exact hm, by show presetView i.preset = _; rw [hpre]; rfl, g, List.mem_cons_self, y0, ?_⟩
        show NormalHeader g.file (textOrEmpty (some i.defX)) y0 ch0 v0
        rw [hx]
        exact hd
      · obtain ⟨a, b, g', hg', c⟩ := h6 sc hsc
        exact ⟨a, b, g', List.mem_cons_of_mem _ hg', c⟩

theorem ne_nil_of_length {α β : Type} {a : List α} {b : List β} (h : a.length = b.length) (hb : b ≠ []) : a ≠ [] := by
  rintro rfl
  exact hb (List.length_eq_zero_iff.1 h.symm)

theorem flatMap_of_map {α β γ : Type} {a : List α} {f : α → List γ} {b : List β} {g : β → List γ} (h : a.map f = b.map g) :
    a.flatMap f = b.flatMap g := by
  rw [List.flatMap_def, h, ← List.flatMap_def]

end

/-! ## Maps -/

theorem measured2_unique {x y z ch : Str} (s : Scan) (p q : List Pt2) (h : Measured2 s x y z ch p) (h' : Measured2 s x y z ch q) :
    p = q := by
  have e1 := Except.ok.inj (h.1.symm.trans h'.1)
  have e2 := Except.ok.inj (h.2.1.symm.trans h'.2.1)
  have e3 := Except.ok.inj (h.2.2.1.symm.trans h'.2.2.1)
  have e4 := Except.ok.inj (h.2.2.2.symm.trans h'.2.2.2)
  have hl : p.length = q.length := by simpa using congrArg List.length e1
  refine List.ext_getElem hl fun k hk hk' => ?_
  have f1 := congrArg (fun l : List Num => l[k]?) e1
  have f2 := congrArg (fun l : List Num => l[k]?) e2
  have f3 := congrArg (fun l : List Num => l[k]?) e3
  have f4 := congrArg (fun l : List Num => l[k]?) e4
  simp only [List.getElem?_map, List.getElem?_eq_getElem hk, List.getElem?_eq_getElem hk', Option.map_some, Option.some.injEq]
    at f1 f2 f3 f4
  cases hp : p[k]; cases hq : q[k]
  rw [hp, hq] at f1 f2 f3 f4
  simp_all

theorem view_measured2 {iso : Str → Py Str} {xml : List Str → Option Str} {fs : FS} {dir : List Str} {file : Str} {f : SpiceFile}
    {ds sn : Str} {s : ScanObj} (h : Loaded iso xml fs dir file f ds sn s) (i : ScanInfo) {x y z ch : Str} {pts : List Pt2}
    (hp : FilePoints2 f x y z ch pts) : Measured2 (s.view i) x y z ch pts := by
  obtain ⟨h1, h2, h3, h4⟩ := hp
  refine ⟨(view_col h i h1).trans ?_, (view_col h i h2).trans ?_, (view_col h i h3).trans ?_, (view_col h i h4).trans ?_⟩ <;>
    simp [List.map_map, Function.comp_def]

theorem combineMap_ok (fmt : Val → Str) {l : List (MemberOf Pt2)} (hne : l ≠ []) {x y z ch0 : Str} {v0 : ℝ}
    {normTo : Option (ℝ × Str)} (h : ∀ g ∈ l, g.Loaded ∧ (∃ x0 y0, NormalHeader g.file x0 y0 ch0 v0) ∧
      FilePoints2 g.file x y z (channel normTo ch0) g.pts) :
    ∃ (views : List Scan) (pts : Scan → List Pt2), views ≠ [] ∧ views.length = l.length ∧ views.map pts = l.map (·.pts) ∧
      (∀ sc ∈ views, Measured2 sc x y z (channel normTo ch0) (pts sc) ∧ sc.preset = .normal ch0 v0 ∧
        ∃ g ∈ l, ∃ y0, NormalHeader g.file sc.defX y0 ch0 v0) ∧
      ∀ (grid : Option Grid2Arg) (d : Map2D), combine2D views x y z normTo grid = .ok d →
        ∃ r, combineMap fmt (l.map (·.scan)) x y z normTo grid = .ok r ∧ r.data = d ∧
          MapLabelled fmt (numbersTitle l) x y z (normTo.getD (v0, ch0)).1 (normTo.getD (v0, ch0)).2 r := by
  obtain ⟨is, h1, h2, h3, h4, pts, h5, h6⟩ := members_views (M := fun s p => Measured2 s x y z (channel normTo ch0) p)
    measured2_unique (l := l) (fun g hg => by
      obtain ⟨⟨iso, xml, fs, dir, file, ds, hl⟩, hd, hp⟩ := h g hg
      exact ⟨⟨iso, xml, fs, dir, file, ds, hl⟩, hd, fun i => view_measured2 hl i hp⟩)
  have hvne := ne_nil_of_length h4 hne
  refine ⟨_, pts, hvne, h4, h5, h6, fun grid d hd => ?_⟩
  have hn : groupNorm is (List.zipWith ScanObj.view (l.map (·.scan)) is) normTo = .ok (normTo.getD (v0, ch0)) := by
    unfold groupNorm
    cases normTo with
    | none => dsimp only; rw [if_pos h3, defaultRenorm_ok hvne fun sc hsc => (h6 sc hsc).2.1]; rfl
    | some n => rfl
  obtain ⟨r, hr, hdat, hl⟩ := labelled_ok fmt d x y z (normTo.getD (v0, ch0)) (numbersTitle l)
  refine ⟨r, ?_, hdat, hl⟩
  unfold combineMap
  rw [h1, py_bind_ok, hd, py_bind_ok, hn, py_bind_ok, h2, hr]

/-- **C95**: the cells of a map hold the points of all the files, with the mean counts, or the counts per channel. -/
theorem C95_map (fmt : Val → Str) (l : List (MemberOf Pt2)) (hne : l ≠ []) (x y z ch0 : Str) (v0 : ℝ) (normTo : Option (ℝ × Str))
    (h : ∀ g ∈ l, g.Loaded ∧ (∃ x0 y0, NormalHeader g.file x0 y0 ch0 v0) ∧ FilePoints2 g.file x y z (channel normTo ch0) g.pts)
    (hpos : ∀ g ∈ l, ∀ q ∈ g.pts, 0 ≤ q.z) (a b : RebinArg) (pa pb : RebinParams) (hfa : formatRebin a = .ok pa)
    (hfb : formatRebin b = .ok pb) (ax bx : Axis) (ha : ax.For ((l.flatMap (·.pts)).map (·.x)) pa)
    (hb : bx.For ((l.flatMap (·.pts)).map (·.y)) pb) :
    ∃ r, combineMap fmt (l.map (·.scan)) x y z normTo (some (.pair a b)) = .ok r ∧
      r.data.x = table ax bx (fun i _ => some (ax.mn + i * ax.step)) ∧ r.data.y = table ax bx (fun _ j => some (bx.mn + j * bx.step)) ∧
      (normTo = none →
        r.data.z = table ax bx (fun i j =>
          ratio (cellSum ax bx (l.flatMap (·.pts)) (·.z) i j) (cellNumber ax bx (l.flatMap (·.pts)) i j)) ∧
        r.data.err = table ax bx (fun i j =>
          ratio √(cellSum ax bx (l.flatMap (·.pts)) (·.z) i j) (cellNumber ax bx (l.flatMap (·.pts)) i j))) ∧
      (∀ v c, normTo = some (v, c) →
        r.data.z = table ax bx (fun i j =>
          ratio (cellSum ax bx (l.flatMap (·.pts)) (·.z) i j * v) (cellSum ax bx (l.flatMap (·.pts)) (·.n) i j)) ∧
        r.data.err = table ax bx (fun i j =>
          ratio (√(cellSum ax bx (l.flatMap (·.pts)) (·.z) i j) * v) (cellSum ax bx (l.flatMap (·.pts)) (·.n) i j))) ∧
      MapLabelled fmt (numbersTitle l) x y z (normTo.getD (v0, ch0)).1 (normTo.getD (v0, ch0)).2 r := by
  obtain ⟨views, pts, hv, _, he, hm, hall⟩ := combineMap_ok fmt hne h
  have hq : ∀ q ∈ l.flatMap (·.pts), 0 ≤ q.z := by
    intro q hq
    obtain ⟨g, hg, hq⟩ := List.mem_flatMap.1 hq
    exact hpos g hg q hq
  have e := combine2D_measured hv (fun s hs => (hm s hs).1) (fun s hs => (hm s hs).2.1) hfa hfb
  rw [flatMap_of_map he] at e
  cases normTo with
  | none =>
    replace e := e.trans (C36_cells (v := 0) (col := none) ha hb hq).1
    obtain ⟨r, hr, hdat, hl⟩ := hall _ _ e
    exact ⟨r, hr, by rw [hdat], by rw [hdat], fun _ => ⟨by rw [hdat], by rw [hdat]⟩, fun _ _ h => (nomatch h), hl⟩
  | some n =>
    replace e := e.trans ((C36_cells ha hb hq).2 (.inl rfl))
    obtain ⟨r, hr, hdat, hl⟩ := hall _ _ e
    refine ⟨r, hr, by rw [hdat], by rw [hdat], fun h => (nomatch h), fun v c hvc => ?_, hl⟩
    obtain rfl := Option.some.inj hvc
    exact ⟨by rw [hdat], by rw [hdat]⟩

/-- **C95**: without a grid, the scans are the rows of the map, point by point; they have the same number of points and were all
scanned along one of the two axes. -/
theorem C95_rows (fmt : Val → Str) (l : List (MemberOf Pt2)) (hne : l ≠ []) (x y z ch0 : Str) (v0 : ℝ) (normTo : Option (ℝ × Str))
    (h : ∀ g ∈ l, g.Loaded ∧ (∃ x0 y0, NormalHeader g.file x0 y0 ch0 v0) ∧ FilePoints2 g.file x y z (channel normTo ch0) g.pts)
    (hax : ∀ g ∈ l, ∀ x0 y0, NormalHeader g.file x0 y0 ch0 v0 → x0 = x ∨ x0 = y)
    (n : ℕ) (hn : ∀ g ∈ l, g.pts.length = n) (hpos : ∀ g ∈ l, ∀ q ∈ g.pts, 0 ≤ q.z) :
    ∃ r, combineMap fmt (l.map (·.scan)) x y z normTo none = .ok r ∧
      r.data.x = l.map (fun g => g.pts.map fun q => some q.x) ∧ r.data.y = l.map (fun g => g.pts.map fun q => some q.y) ∧
      (normTo = none → r.data.z = l.map (fun g => g.pts.map fun q => some q.z) ∧
        r.data.err = l.map (fun g => g.pts.map fun q => some √q.z)) ∧
      (∀ v c, normTo = some (v, c) → r.data.z = l.map (fun g => g.pts.map fun q => ratio (q.z * v) q.n) ∧
        r.data.err = l.map (fun g => g.pts.map fun q => ratio (√q.z * v) q.n)) ∧
      MapLabelled fmt (numbersTitle l) x y z (normTo.getD (v0, ch0)).1 (normTo.getD (v0, ch0)).2 r := by
  obtain ⟨views, pts, hv, _, he, hm, hall⟩ := combineMap_ok fmt hne h
  have hrow : ∀ {β : Type} (f : List Pt2 → β), views.map (fun s => f (pts s)) = l.map (fun g => f g.pts) := by
    intro β f
    have := congrArg (List.map f) he
    rw [List.map_map, List.map_map] at this
    exact this
  have hmem : ∀ s ∈ views, ∃ g ∈ l, g.pts = pts s := by
    intro s hs
    have : pts s ∈ l.map (·.pts) := he ▸ List.mem_map_of_mem hs
    obtain ⟨g, hg, e⟩ := List.mem_map.1 this
    exact ⟨g, hg, e⟩
  have hlen : ∀ s ∈ views, (pts s).length = n := fun s hs => by
    obtain ⟨g, hg, e⟩ := hmem s hs
    rw [← e]; exact hn g hg
  have hz : ∀ s ∈ views, ∀ q ∈ pts s, 0 ≤ q.z := fun s hs => by
    obtain ⟨g, hg, e⟩ := hmem s hs
    rw [← e]; exact hpos g hg
  obtain ⟨c1, c2⟩ := C41_rows_partial hv (n := n) (x := x) (y := y) (z := z)
    (fx := fun s => (pts s).map fun q => some q.x) (fy := fun s => (pts s).map fun q => some q.y)
    (fz := fun s => (pts s).map fun q => some q.z) (fn := fun s => (pts s).map fun q => some q.n)
    (fun s hs => ⟨(hm s hs).1.1, by rw [List.length_map]; exact hlen s hs⟩)
    (fun s hs => ⟨(hm s hs).1.2.1, by rw [List.length_map]; exact hlen s hs⟩)
    (fun s hs => ⟨(hm s hs).1.2.2.1, by rw [List.length_map]; exact hlen s hs⟩)
    (fun s hs => by
      obtain ⟨g, hg, y0, hh⟩ := (hm s hs).2.2
      exact hax g hg _ _ hh)
  cases normTo with
  | none =>
    obtain ⟨r, hr, hdat, hl⟩ := hall none _ (c1 ch0 v0 fun s hs => (hm s hs).2.1)
    refine ⟨r, hr, by rw [hdat]; exact hrow _, by rw [hdat]; exact hrow _, fun _ => ⟨by rw [hdat]; exact hrow _, ?_⟩,
      fun _ _ h => (nomatch h), hl⟩
    rw [hdat, ← hrow fun p => p.map fun q => some √q.z]
    refine List.map_congr_left fun s hs => ?_
    rw [List.map_map]
    refine List.map_congr_left fun q hq => ?_
    show nsqrt (some q.z) = _
    rw [nsqrt, if_neg (not_lt.2 (hz s hs q hq))]
  | some m =>
    obtain ⟨r, hr, hdat, hl⟩ := hall none _ (c2 m.1 m.2 fun s hs => ⟨(hm s hs).1.2.2.2, by rw [List.length_map]; exact hlen s hs⟩)
    refine ⟨r, hr, by rw [hdat]; exact hrow _, by rw [hdat]; exact hrow _, fun h => (nomatch h), fun v c hvc => ?_, hl⟩
    obtain rfl := Option.some.inj hvc
    constructor
    · rw [hdat, ← hrow fun p => p.map fun q => ratio (q.z * v) q.n]
      refine List.map_congr_left fun s hs => ?_
      rw [List.zipWith_map, List.zipWith_self, List.map_map]
      refine List.map_congr_left fun q hq => ?_
      show nmul (ndiv (some q.z) (some q.n)) (some v) = _
      unfold ratio nmul ndiv
      by_cases h0 : q.n = 0
      · simp [h0]
      · simp [h0]; ring
    · rw [hdat, ← hrow fun p => p.map fun q => ratio (√q.z * v) q.n]
      refine List.map_congr_left fun s hs => ?_
      rw [List.map_map, List.zipWith_map, List.zipWith_self, List.map_map]
      refine List.map_congr_left fun q hq => ?_
      show nmul (ndiv (nsqrt (some q.z)) (some q.n)) (some v) = _
      rw [nsqrt, if_neg (not_lt.2 (hz s hs q hq))]
      unfold ratio nmul ndiv
      by_cases h0 : q.n = 0
      · simp [h0]
      · simp [h0]; ring

end Tavi
