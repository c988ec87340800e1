import Verif.Props.ScanPlot

/-!
# C94, continued: axes with an underscore, groups of scans, polarised scans and what is drawn
-/

namespace Tavi

open Spec

/-! ## Underscores -/

theorem split_two {c : Char} {s : Str} (h : c ∈ s) : 1 < (splitChar c s).length := by
  by_contra hc
  obtain ⟨h1, h2⟩ := join_splitChar c s
  have h3 := List.length_pos_iff.2 (splitChar_ne_nil c s)
  obtain ⟨p, hp⟩ := List.length_eq_one_iff.1 (show (splitChar c s).length = 1 by omega)
  rw [hp] at h1 h2
  exact h2 p (by simp) (show c ∈ joinStr [c] [p] by rw [h1]; exact h)

/-- **C94**, the code disagrees: a column whose name has an underscore cannot be shown against another one, unless the scan is
polarised. -/
theorem C94_underscore_fails (iso : Str → Py Str) (xml : List Str → Option Str) (fs : FS) (dir : List Str) (file : Str)
    (f : SpiceFile) (ds : Str) (m : ℕ) (s : ScanObj) (h : Loaded iso xml fs dir file f ds (scanName m) s) (x0 y0 ch : Str) (v : ℝ)
    (hd : NormalHeader f x0 y0 ch v) (fmt : Val → Str) (xa ya : Option Str) (hu : '_' ∈ ya.getD y0)
    (normTo : Option (ℝ × Str)) (grid tol : Option RebinArg) (r : LabelledData) :
    s.getData fmt xa ya normTo grid tol ≠ .ok r := by
  intro he
  obtain ⟨i, hi, hx, hy, hnum, ht, hp⟩ := normal_info h hd
  unfold ScanObj.getData at he
  rw [hi, py_bind_ok] at he
  obtain ⟨x, _, he⟩ := py_bind_eq_ok.1 he
  obtain ⟨y, e2, he⟩ := py_bind_eq_ok.1 he
  obtain ⟨d, _, he⟩ := py_bind_eq_ok.1 he
  obtain ⟨t, e3, _⟩ := py_bind_eq_ok.1 he
  have : y = ya.getD y0 := by
    rw [hy] at e2
    cases ya with
    | none => exact (Except.ok.inj e2).symm
    | some t => exact (Except.ok.inj e2).symm
  subst this
  unfold curveLabel at e3
  rw [if_pos (split_two hu)] at e3
  obtain ⟨k, _, e3⟩ := py_bind_eq_ok.1 e3
  rw [hp] at e3
  cases e3

/-! ## Groups -/

/-- A scan of a group: the scan, its file, its number and its points. -/
structure Spec.Member where
  scan : ScanObj
  file : SpiceFile
  number : ℕ
  pts : List Pt

/-- The scan is the one loaded from the file; it was counted up to `v` of the channel `ch`, and it has these points. -/
def Spec.Member.Holds (g : Member) (x y ch0 : Str) (v0 : ℝ) (ch : Str) : Prop :=
  (∃ iso xml fs dir file ds, Loaded iso xml fs dir file g.file ds (scanName g.number) g.scan) ∧
    (∃ x0 y0, NormalHeader g.file x0 y0 ch0 v0) ∧ FilePoints g.file x y ch g.pts

/-- The title of a group. -/
def Spec.membersTitle (l : List Member) : Str :=
  "Combined scans: ".toList ++ l.flatMap fun g => decStr (g.number % 10000) ++ " ".toList

theorem measured_unique {s : Scan} {x y ch : Str} {p q : List Pt} (h : Measured s x y ch p) (h' : Measured s x y ch q) : p = q := by
  have e1 := Except.ok.inj (h.1.symm.trans h'.1)
  have e2 := Except.ok.inj (h.2.1.symm.trans h'.2.1)
  have e3 := Except.ok.inj (h.2.2.symm.trans h'.2.2)
  unfold monitors at e3
  have hl : p.length = q.length := by simpa using congrArg List.length e1
  refine List.ext_getElem hl fun k hk hk' => ?_
  have f1 := congrArg (fun l : List Num => l[k]?) e1
  have f2 := congrArg (fun l : List Num => l[k]?) e2
  have f3 := congrArg (fun l : List Num => l[k]?) e3
  simp only [List.getElem?_map, List.getElem?_eq_getElem hk, List.getElem?_eq_getElem hk', Option.map_some, Option.some.injEq] at f1 f2 f3
  cases hp : p[k]; cases hq : q[k]
  rw [hp, hq] at f1 f2 f3
  simp_all

/-- The members of a group, as columns. -/
theorem members_view {l : List Member} {x y ch0 : Str} {v0 : ℝ} {ch : Str} (h : ∀ g ∈ l, g.Holds x y ch0 v0 ch) :
    ∃ is : List ScanInfo, (l.map (·.scan)).mapM scanInfo = .ok is ∧ groupTitle is = membersTitle l ∧
      (is.all fun i => i.preset.plain) = true ∧ (is = [] ↔ l = []) ∧
      ∃ pts : Scan → List Pt, (List.zipWith ScanObj.view (l.map (·.scan)) is).flatMap pts = l.flatMap (·.pts) ∧
        ∀ sc ∈ List.zipWith ScanObj.view (l.map (·.scan)) is, Measured sc x y ch (pts sc) ∧ sc.preset = .normal ch0 v0 := by
  classical
  let pts : Scan → List Pt := fun sc => if h : ∃ p, Measured sc x y ch p then h.choose else []
  have hpts : ∀ {sc p}, Measured sc x y ch p → pts sc = p := by
    intro sc p hm
    have hex : ∃ p, Measured sc x y ch p := ⟨p, hm⟩
    show (if h : ∃ p, Measured sc x y ch p then h.choose else []) = p
    rw [dif_pos hex]
    exact measured_unique hex.choose_spec hm
  suffices ∃ is : List ScanInfo, (l.map (·.scan)).mapM scanInfo = .ok is ∧
      (is.flatMap fun i => intStr i.scanNum ++ " ".toList) = l.flatMap (fun g => decStr (g.number % 10000) ++ " ".toList) ∧
      (is.all fun i => i.preset.plain) = true ∧ (is = [] ↔ l = []) ∧
      (List.zipWith ScanObj.view (l.map (·.scan)) is).flatMap pts = l.flatMap (·.pts) ∧
        ∀ sc ∈ List.zipWith ScanObj.view (l.map (·.scan)) is, Measured sc x y ch (pts sc) ∧ sc.preset = .normal ch0 v0 by
    obtain ⟨is, h1, h2, h3, h4, h5⟩ := this
    exact ⟨is, h1, congrArg ("Combined scans: ".toList ++ ·) h2, h3, h4, pts, h5⟩
  induction l with
  | nil => exact ⟨[], rfl, rfl, rfl, by simp, rfl, by simp⟩
  | cons g l ih =>
    obtain ⟨is, h1, h2, h3, h4, h5, h6⟩ := ih fun g hg => h g (List.mem_cons_of_mem _ hg)
    obtain ⟨⟨iso, xml, fs, dir, file, ds, hl⟩, ⟨x0, y0, hd⟩, hp⟩ := h g List.mem_cons_self
    obtain ⟨i, hi, _, _, hnum, _, hpre⟩ := normal_info hl hd
    have hm := view_measured hl i hp
    refine ⟨i :: is, ?_, ?_, ?_, by simp, ?_, ?_⟩
    · rw [List.map_cons, List.mapM_cons, hi, py_bind_ok, h1, py_bind_ok]; rfl
    · rw [List.flatMap_cons, List.flatMap_cons, h2, hnum, intStr_nat]
    · rw [List.all_cons, h3, hpre]; rfl
    · rw [List.map_cons, List.zipWith_cons_cons, List.flatMap_cons, List.flatMap_cons, h5, hpts hm]
    · rw [List.map_cons, List.zipWith_cons_cons]
      intro sc hsc
      rcases List.mem_cons.1 hsc with rfl | hsc
      · rw [hpts hm]
        exact ⟨hm, by show presetView i.preset = _; rw [hpre]; rfl⟩
      · exact h6 sc hsc

/-- A group is labelled with the axes, the normalisation and the numbers of the scans. -/
structure Spec.GroupLabelled (fmt : Val → Str) (l : List Member) (x y : Str) (v : ℝ) (ch : Str) (r : LabelledData) : Prop where
  xlabel : r.xlabel = x
  ylabel : r.ylabel = perText fmt y v ch
  title : r.title = membersTitle l

theorem combineObjs_ok (fmt : Val → Str) {l : List Member} (hne : l ≠ []) {x y ch0 : Str} {v0 : ℝ} {normTo : Option (ℝ × Str)}
    (h : ∀ g ∈ l, g.Holds x y ch0 v0 (channel normTo ch0)) :
    ∃ (views : List Scan) (pts : Scan → List Pt), views ≠ [] ∧ views.flatMap pts = l.flatMap (·.pts) ∧
      (∀ sc ∈ views, Measured sc x y (channel normTo ch0) (pts sc) ∧ sc.preset = .normal ch0 v0) ∧
      ∀ (grid tol : Option RebinArg) (d : ScanData1D), combine1D views x y normTo grid tol = .ok d →
        ∃ r, combineObjs fmt (l.map (·.scan)) x y normTo grid tol = .ok r ∧ r.data = d ∧
          GroupLabelled fmt l x y (normTo.getD (v0, ch0)).1 (normTo.getD (v0, ch0)).2 r := by
  obtain ⟨is, h1, h2, h3, h4, pts, h5, h6⟩ := members_view h
  have hvne : List.zipWith ScanObj.view (l.map (·.scan)) is ≠ [] := by
    intro he
    have h7 := congrArg List.length he
    rw [List.length_zipWith, List.length_map, List.length_nil] at h7
    have h8 := List.length_pos_iff.2 hne
    have h9 := List.length_pos_iff.2 fun e => hne (h4.1 e)
    omega
  refine ⟨_, pts, hvne, h5, h6, fun grid tol d hd => ?_⟩
  have hn : groupNorm is (List.zipWith ScanObj.view (l.map (·.scan)) is) normTo = .ok (normTo.getD (v0, ch0)) := by
    unfold groupNorm
    cases normTo with
    | none => dsimp only; rw [if_pos h3, defaultRenorm_ok hvne fun sc hsc => (h6 sc hsc).2]; rfl
    | some n => rfl
  refine ⟨⟨d, x, perText fmt y (normTo.getD (v0, ch0)).1 (normTo.getD (v0, ch0)).2, [], membersTitle l⟩, ?_, rfl, rfl, rfl, rfl⟩
  unfold combineObjs
  rw [h1, py_bind_ok, hd, py_bind_ok, hn, py_bind_ok, countLabel_num, h2]
  rfl

/-- **C94**: a group of scans shows the points of all their files one after the other, normalised as asked for. -/
theorem C94_group (fmt : Val → Str) (l : List Member) (hne : l ≠ []) (x y ch0 : Str) (v0 : ℝ) (normTo : Option (ℝ × Str))
    (h : ∀ g ∈ l, g.Holds x y ch0 v0 (channel normTo ch0)) (hpos : ∀ g ∈ l, ∀ q ∈ g.pts, 0 ≤ q.y) :
    ∃ r, combineObjs fmt (l.map (·.scan)) x y normTo none none = .ok r ∧
      r.data.x = (l.flatMap (·.pts)).map (fun q => some q.x) ∧
      (normTo = none → r.data.y = (l.flatMap (·.pts)).map (fun q => some q.y) ∧
        r.data.err = (l.flatMap (·.pts)).map (fun q => some √q.y)) ∧
      (∀ v c, normTo = some (v, c) → r.data.y = (l.flatMap (·.pts)).map (fun q => ratio (q.y * v) q.n) ∧
        r.data.err = (l.flatMap (·.pts)).map (fun q => ratio (√q.y * v) q.n)) ∧
      GroupLabelled fmt l x y (normTo.getD (v0, ch0)).1 (normTo.getD (v0, ch0)).2 r := by
  obtain ⟨views, pts, hv, he, hm, hall⟩ := combineObjs_ok fmt hne h
  have hq : ∀ q ∈ l.flatMap (·.pts), 0 ≤ q.y := by
    intro q hq
    obtain ⟨g, hg, hq⟩ := List.mem_flatMap.1 hq
    exact hpos g hg q hq
  have hx := groupCol_ok fun s hs => (hm s hs).1.1
  have hy := groupCol_ok fun s hs => (hm s hs).1.2.1
  have hn := groupCol_ok fun s hs => (hm s hs).1.2.2
  have e1 : (views.flatMap fun s => (pts s).map fun p => some p.x) = (l.flatMap (·.pts)).map fun p => some p.x := by
    rw [← he, List.map_flatMap]
  have e2 : (views.flatMap fun s => (pts s).map fun p => some p.y) = (l.flatMap (·.pts)).map fun p => some p.y := by
    rw [← he, List.map_flatMap]
  have e3 : (views.flatMap fun s => monitors (pts s)) = monitors (l.flatMap (·.pts)) := by
    unfold monitors; rw [← he, List.map_flatMap]
  rw [e1] at hx
  rw [e2] at hy
  rw [e3] at hn
  have hd := defaultRenorm_ok hv fun sc hsc => (hm sc hsc).2
  cases normTo with
  | none =>
    obtain ⟨r, hr, hdat, hl⟩ := hall none none (curve (l.flatMap (·.pts)) none) (by
      unfold combine1D
      rw [hx, py_bind_ok, hy, py_bind_ok, hd, curve_init]
      rfl)
    refine ⟨r, hr, by rw [hdat]; rfl, fun _ => ⟨by rw [hdat]; rfl, ?_⟩, fun _ _ h => (nomatch h), hl⟩
    rw [hdat]
    refine List.map_congr_left fun q hq' => ?_
    rw [if_neg (not_lt.2 (hq q hq'))]
  | some n =>
    obtain ⟨d, hd1, hd2⟩ := C33_renorm (v := n.1) hq (norm := none) (col := some (monitors (l.flatMap (·.pts)))) (.inl rfl)
    obtain ⟨r, hr, hdat, hl⟩ := hall none none d (by
      unfold combine1D
      rw [hx, py_bind_ok, hy, py_bind_ok, curve_init]
      show (groupCol views n.2 >>= _) = _
      rw [show groupCol views n.2 = _ from hn, py_bind_ok]
      exact hd1)
    refine ⟨r, hr, by rw [hdat]; exact hd2.1, fun h => (nomatch h), fun v c hvc => ?_, hl⟩
    obtain rfl := Option.some.inj hvc
    exact ⟨by rw [hdat]; exact hd2.2.1, by rw [hdat]; exact hd2.2.2⟩

/-- **C94**: the bins of a group of scans hold the points of all their files. -/
theorem C94_group_grid (fmt : Val → Str) (l : List Member) (hne : l ≠ []) (x y ch0 : Str) (v0 : ℝ) (normTo : Option (ℝ × Str))
    (h : ∀ g ∈ l, g.Holds x y ch0 v0 (channel normTo ch0)) (hpos : ∀ g ∈ l, ∀ q ∈ g.pts, 0 ≤ q.y)
    (a : RebinArg) (ht : a.truthy = true) (tol : Option RebinArg) (p : RebinParams) (hf : formatRebin a = .ok p) (mn mx step : ℝ)
    (N : ℕ) (hr : Range ((l.flatMap (·.pts)).map (·.x)) p mn mx step) (hN : BinCount mn mx step N) :
    ∃ r, combineObjs fmt (l.map (·.scan)) x y normTo (some a) tol = .ok r ∧
      r.data.x = (List.range N).map (fun j : ℕ => some (mn + j * step)) ∧
      (normTo = none → r.data.y = (List.range N).map (fun j =>
          ratio (counts mn step (l.flatMap (·.pts)) j) (number mn step (l.flatMap (·.pts)) j)) ∧
        r.data.err = (List.range N).map (fun j =>
          ratio √(counts mn step (l.flatMap (·.pts)) j) (number mn step (l.flatMap (·.pts)) j))) ∧
      (∀ v c, normTo = some (v, c) → r.data.y = (List.range N).map (fun j =>
          ratio (counts mn step (l.flatMap (·.pts)) j * v) (monitor mn step (l.flatMap (·.pts)) j)) ∧
        r.data.err = (List.range N).map (fun j =>
          ratio (√(counts mn step (l.flatMap (·.pts)) j) * v) (monitor mn step (l.flatMap (·.pts)) j))) ∧
      GroupLabelled fmt l x y (normTo.getD (v0, ch0)).1 (normTo.getD (v0, ch0)).2 r := by
  obtain ⟨views, pts, hv, he, hm, hall⟩ := combineObjs_ok fmt hne h
  have hq : ∀ q ∈ l.flatMap (·.pts), 0 ≤ q.y := by
    intro q hq
    obtain ⟨g, hg, hq⟩ := List.mem_flatMap.1 hq
    exact hpos g hg q hq
  have e := combine1D_measured (grid := some a) (tol := tol) hv (fun s hs => (hm s hs).1) (fun s hs => (hm s hs).2) (a := a) rfl ht hf
  rw [he] at e
  cases normTo with
  | none =>
    replace e := e.trans (C30_grid hr hN hq)
    obtain ⟨r, hr, hdat, hl⟩ := hall (some a) tol _ e
    exact ⟨r, hr, by rw [hdat], fun _ => ⟨by rw [hdat], by rw [hdat]⟩, fun _ _ h => (nomatch h), hl⟩
  | some n =>
    replace e := e.trans (C30_grid_renorm hr hN hq (.inl rfl))
    obtain ⟨r, hr, hdat, hl⟩ := hall (some a) tol _ e
    refine ⟨r, hr, by rw [hdat], fun h => (nomatch h), fun v c hvc => ?_, hl⟩
    obtain rfl := Option.some.inj hvc
    exact ⟨by rw [hdat], by rw [hdat]⟩

/-! ## Polarised scans -/

/-- The header of a polarised scan with default abscissa `x` and the channels, values and labels of its count file. -/
structure Spec.CountHeader (f : SpiceFile) (x : Str) (cs : List Str) (qs : List ℚ) (ls : List Str) : Prop where
  abscissa : ∃ x', header f "def_x".toList = some x' ∧ x = (lookupKey x' renamed).getD x'
  ordinate : (header f "def_y".toList).isSome
  type : Polarized f
  channels : lookupKey "norm_channels".toList f.metadata = some (.strs cs)
  values : lookupKey "norm_vals".toList f.metadata = some (.nums qs)
  labels : lookupKey "labels".toList f.metadata = some (.strs ls)
  named : ∀ c ∈ cs, c ≠ []

theorem detector_name (k : ℕ) : "detector_".toList ++ decStr k = withNumber "detector".toList k := by
  rw [withNumber, show "detector_".toList = "detector".toList ++ ['_'] by decide, List.append_assoc]
  rfl

theorem detector_split (k : ℕ) : splitChar '_' (withNumber "detector".toList k) = ["detector".toList, decStr k] := by
  have h : '_' ∉ decStr k := fun h => by
    obtain ⟨_, h2, _⟩ := decStr_spec k
    exact absurd (List.all_eq_true.1 h2 _ h) (by decide)
  rw [withNumber, splitChar_cons (by decide), splitChar_plain h]

theorem pyInt_decStr (k : ℕ) : pyInt (decStr k) = .ok (k : ℤ) := by
  obtain ⟨h1, h2, h3⟩ := decStr_spec k
  rw [pyInt_digits h3 h2, h1]

theorem pyIndex_nat {α : Type} {l : List α} {k : ℕ} {a : α} (h : l[k]? = some a) : pyIndex l (((k + 1 : ℕ) : ℤ) - 1) = .ok a := by
  rw [show (((k + 1 : ℕ) : ℤ) - 1) = (k : ℤ) by push_cast; ring, pyIndex, if_pos (by omega), Int.toNat_natCast, h]
  rfl

section
variable {iso : Str → Py Str} {xml : List Str → Option Str} {fs : FS} {dir : List Str} {file : Str} {f : SpiceFile} {ds : Str}
  {m : ℕ} {s : ScanObj}

theorem count_info {x : Str} {cs ls : List Str} {qs : List ℚ} (h : Loaded iso xml fs dir file f ds (scanName m) s)
    (hd : CountHeader f x cs qs ls) {n : ℕ} (hn : Detectors ((columns f).map Prod.fst) n) :
    ∃ i, scanInfo s = .ok i ∧ i.defX = .leaf (.str x) ∧ i.scanNum = (m % 10000 : ℕ) ∧
      i.title = shownText (header f "scan_title".toList) ∧ n ≤ cs.length ∧
      i.preset = .countfile ((List.range (min 12 n)).map (channelReport cs qs ls)) := by
  obtain ⟨⟨x', hx, rfl⟩, hy, ht, h1, h2, h3, hne⟩ := hd
  obtain ⟨y, hy⟩ := Option.isSome_iff_exists.1 hy
  obtain ⟨i, e, hr, hnum, _, hp, hle⟩ := C77_countfile_partial iso xml fs dir file f ds m s h x' y hx hy ht cs qs ls h1 h2 h3 hne n hn
  exact ⟨i, e, hr.abscissa _ hx, hnum, hr.title, hle, hp⟩

/-- One detector, normalised to its own channel. -/
theorem getData_channel (fmt : Val → Str) {x : Str} {cs ls : List Str} {qs : List ℚ}
    (h : Loaded iso xml fs dir file f ds (scanName m) s) (hd : CountHeader f x cs qs ls) {n : ℕ}
    (hn : Detectors ((columns f).map Prod.fst) n) {k : ℕ} (hk : k < min 12 n) {c t : Str} {q : ℚ}
    (hl : ls[k]? = some t) (ht : t ≠ []) (hq : q ≠ 0) {xa : Option Str} {pts : List Pt}
    (hp : FilePoints f (xa.getD x) (withNumber "detector".toList (k + 1)) c pts) (hpos : ∀ q ∈ pts, 0 ≤ q.y) :
    ∃ r, s.getData fmt xa (some (withNumber "detector".toList (k + 1))) (some ((q : ℝ), c)) none none = .ok r ∧
      r.data.x = pts.map (fun p => some p.x) ∧ r.data.y = pts.map (fun p => ratio (p.y * q) p.n) ∧
      r.data.err = pts.map (fun p => ratio (√p.y * q) p.n) ∧
      LabelledAs fmt f m (xa.getD x) (withNumber "detector".toList (k + 1)) q c t r := by
  obtain ⟨i, hi, hx, hnum, htt, hle, hpre⟩ := count_info h hd hn
  have hv : ((q : ℚ) : ℝ) ≠ 0 := by exact_mod_cast hq
  have hrow : ((List.range (min 12 n)).map (channelReport cs qs ls))[k]? = some (channelReport cs qs ls k) := by
    rw [List.getElem?_map, List.getElem?_range hk]; rfl
  obtain ⟨d, hd1, hd2⟩ := C33_renorm (v := (q : ℝ)) hpos (norm := none) (col := some (monitors pts)) (.inl rfl)
  obtain ⟨m1, m2, m3⟩ := view_measured h i hp
  have hlab : (channelReport cs qs ls k).2.2 = some (.leaf (.str t)) := by
    show shownText ls[k]? = _
    rw [hl, shownText_some ht]
  have e0 : (s.view i).labelOk (withNumber "detector".toList (k + 1)) = .ok () := by
    unfold Scan.labelOk
    have hpv : (s.view i).preset = presetView i.preset := rfl
    rw [detector_split, hpv, hpre, presetView]
    show (if 2 > 1 then pyInt (decStr (k + 1)) >>= _ else _) = _
    rw [if_pos (by decide), pyInt_decStr, py_bind_ok]
    show (pyIndex _ _ >>= _) = _
    rw [pyIndex_nat (a := textOrEmpty (channelReport cs qs ls k).2.2) (by rw [List.getElem?_map, hrow]; rfl), py_bind_ok]
    rfl
  have e1 : (s.view i).getData (some (xa.getD x)) (some (withNumber "detector".toList (k + 1))) (some ((q : ℝ), c)) none none = .ok d := by
    unfold Scan.getData
    simp only [Option.getD_some, column_plain hp.1, Bool.false_eq_true, if_false]
    rw [m1, py_bind_ok, m2, py_bind_ok, e0, py_bind_ok]
    show ((s.view i).col c >>= _) = _
    rw [m3, py_bind_ok, renorm_preset _ _ hv, curve_init, hd1]
  have e2 : curveLabel i (withNumber "detector".toList (k + 1)) = .ok ("#".toList ++ decStr (m % 10000) ++ " ".toList ++ t) := by
    unfold curveLabel
    rw [detector_split, if_pos (by simp)]
    show (pyInt (decStr (k + 1)) >>= _) = _
    rw [pyInt_decStr, py_bind_ok, hpre]
    dsimp only
    rw [pyIndex_nat (a := (channelReport cs qs ls k).2.2) (by rw [List.getElem?_map, hrow]; rfl), py_bind_ok, hlab, hnum, intStr_nat]
    rfl
  have e3 : chosenAxis xa i.defX = .ok (xa.getD x) := by rw [hx]; cases xa <;> rfl
  refine ⟨⟨d, xa.getD x, perText fmt (withNumber "detector".toList (k + 1)) q c, _, titleText f⟩, ?_, hd2.1, hd2.2.1, hd2.2.2,
    ⟨rfl, rfl, rfl, rfl⟩⟩
  unfold ScanObj.getData
  rw [hi, py_bind_ok, e3, py_bind_ok, show chosenAxis (some (withNumber "detector".toList (k + 1))) i.defY = .ok _ from rfl, py_bind_ok,
    e1, py_bind_ok, e2, py_bind_ok, show countLabelOf fmt i (withNumber "detector".toList (k + 1)) (some ((q : ℝ), c)) = _ from
      countLabel_num _ _ _ _, ← title_eq fmt, ← htt]
  rfl

end

/-- **C94**: plotting a polarised scan gives one curve for each detector (the first twelve): its counts normalised to its own
channel of the count file, labelled with the state of polarisation. The abscissa is always the one of the header. -/
theorem C94_polarised (iso : Str → Py Str) (xml : List Str → Option Str) (fs : FS) (dir : List Str) (file : Str) (f : SpiceFile)
    (ds : Str) (m : ℕ) (s : ScanObj) (h : Loaded iso xml fs dir file f ds (scanName m) s) (x : Str) (cs : List Str) (qs : List ℚ)
    (ls : List Str) (hd : CountHeader f x cs qs ls) (n : ℕ) (hn : Detectors ((columns f).map Prod.fst) n) (fmt : Val → Str)
    (c t : ℕ → Str) (q : ℕ → ℚ) (pts : ℕ → List Pt)
    (hall : ∀ k < n, cs[k]? = some (c k) ∧ qs[k]? = some (q k) ∧ q k ≠ 0 ∧ ls[k]? = some (t k) ∧ t k ≠ [] ∧
      FilePoints f x (withNumber "detector".toList (k + 1)) (c k) (pts k) ∧ ∀ p ∈ pts k, 0 ≤ p.y)
    (xa : Option Str) (normTo : Option (ℝ × Str)) :
    ∃ l, s.curves fmt xa none normTo none none = .ok l ∧ l.length = min 12 n ∧ ∀ k r, l[k]? = some r →
      r.data.x = (pts k).map (fun p => some p.x) ∧ r.data.y = (pts k).map (fun p => ratio (p.y * q k) p.n) ∧
      r.data.err = (pts k).map (fun p => ratio (√p.y * q k) p.n) ∧
      LabelledAs fmt f m x (withNumber "detector".toList (k + 1)) (q k) (c k) (t k) r := by
  obtain ⟨i, hi, hx, hnum, htt, hle, hpre⟩ := count_info h hd hn
  have hk : ∀ k < min 12 n, ∃ r, (channelNorm (channelReport cs qs ls k) >>= fun nm =>
      s.getData fmt none (some ("detector_".toList ++ decStr (k + 1))) (some nm) none none) = .ok r ∧
      r.data.x = (pts k).map (fun p => some p.x) ∧ r.data.y = (pts k).map (fun p => ratio (p.y * q k) p.n) ∧
      r.data.err = (pts k).map (fun p => ratio (√p.y * q k) p.n) ∧
      LabelledAs fmt f m x (withNumber "detector".toList (k + 1)) (q k) (c k) (t k) r := by
    intro k hk
    obtain ⟨h1, h2, h3, h4, h5, h6, h7⟩ := hall k (by omega)
    obtain ⟨r, hr, hr'⟩ := getData_channel (xa := none) fmt h hd hn hk h4 h5 h3 h6 h7
    refine ⟨r, ?_, hr'⟩
    have e : channelReport cs qs ls k = (some (.leaf (.str (c k))), some (.leaf (.num (q k : ℝ))), shownText ls[k]?) := by
      rw [channelReport, h1, h2, shownText_some (hd.named _ (List.mem_of_getElem? h1))]
      rfl
    rw [e, detector_name]
    exact hr
  have : Nonempty LabelledData := ⟨⟨⟨[], [], [], none⟩, [], [], [], []⟩⟩
  choose! g hg using hk
  refine ⟨(List.range (min 12 n)).map g, ?_, by simp, fun k r hr => ?_⟩
  · unfold ScanObj.curves
    rw [hi, py_bind_ok, hpre]
    dsimp only
    rw [mapM_ok (g := fun rk => g rk.2) (by
      intro rk hrk
      obtain ⟨h1, h2⟩ := List.mem_zipIdx' hrk
      rw [List.length_map, List.length_range] at h1
      rw [h2, List.getElem_map, List.getElem_range]
      exact (hg rk.2 h1).1)]
    refine congrArg Except.ok (List.ext_getElem (by simp) fun k h1 h2 => ?_)
    simp
  · rw [List.getElem?_map] at hr
    obtain ⟨j, hj, rfl⟩ := Option.map_eq_some_iff.1 hr
    obtain ⟨hj1, hj2⟩ := List.getElem?_eq_some_iff.1 hj
    rw [List.getElem_range] at hj2
    subst hj2
    rw [List.length_range] at hj1
    exact (hg k hj1).2

/-- **C94**, the code disagrees: the abscissa and the normalisation asked for are ignored when a polarised scan is plotted
without naming a detector. -/
theorem C94_abscissa_ignored (iso : Str → Py Str) (xml : List Str → Option Str) (fs : FS) (dir : List Str) (file : Str)
    (f : SpiceFile) (ds : Str) (m : ℕ) (s : ScanObj) (h : Loaded iso xml fs dir file f ds (scanName m) s) (x : Str) (cs : List Str)
    (qs : List ℚ) (ls : List Str) (hd : CountHeader f x cs qs ls) (n : ℕ) (hn : Detectors ((columns f).map Prod.fst) n)
    (fmt : Val → Str) (xa : Option Str) (normTo : Option (ℝ × Str)) (grid tol : Option RebinArg) :
    s.curves fmt xa none normTo grid tol = s.curves fmt none none none grid tol := by
  obtain ⟨i, hi, hx, hnum, htt, hle, hpre⟩ := count_info h hd hn
  unfold ScanObj.curves
  rw [hi, py_bind_ok, py_bind_ok, hpre]

end Tavi
