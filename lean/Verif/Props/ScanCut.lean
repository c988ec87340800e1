import Verif.Props.ScanMap

/-!
# What cuts through loaded scans show is what their files say (C95)
-/

namespace Tavi

open Spec

/-! ## What the statements refer to -/

/-- A projection vector as the user writes it. -/
structure Spec.HklVec where
  a : LabelNum
  b : LabelNum
  c : LabelNum

/-- The vector as numbers. -/
noncomputable def Spec.HklVec.vec (v : HklVec) : V3 := ![(v.a.val : ℝ), (v.b.val : ℝ), (v.c.val : ℝ)]

/-- The vector as an axis with a label. -/
def Spec.HklVec.axis (v : HklVec) : LabelAxis := .vec v.a v.b v.c

/-- The axes as the user writes them: three vectors with `en` in place `k`, then the column with the counts. -/
def Spec.userHkl (k : Fin 4) (vs : Fin 3 → HklVec) (z : Str) : List HklAxis :=
  List.ofFn (Fin.insertNth (α := fun _ => HklAxis) k (.name "en".toList) fun i => .vec (vs i).a (vs i).b (vs i).c) ++ [.name z]

/-- The letters of the three vectors: H, K, L, none twice, to each the letter of its first entry that is not zero, unless an earlier
vector has it. -/
structure Spec.Letters (vs : Fin 3 → HklVec) (letters : Fin 3 → Char) : Prop where
  inj : Function.Injective letters
  mem : ∀ i, letters i ∈ ['H', 'K', 'L']
  own : ∀ i c, ownLetter (vs i).axis c → (∀ j, j < i → letters j ≠ c) → letters i = c

/-- How the axes are labelled, in the user's order. -/
def Spec.axisText (fmt3 : ℚ → Str) (k : Fin 4) (vs : Fin 3 → HklVec) (letters : Fin 3 → Char) : Fin 4 → Str :=
  Fin.insertNth (α := fun _ => Str) k "E (meV)".toList fun i => vectorText fmt3 (letters i) (vs i).axis

/-- How the axes are called in the title: without the units. -/
def Spec.axisShort (fmt3 : ℚ → Str) (k : Fin 4) (vs : Fin 3 → HklVec) (letters : Fin 3 → Char) : Fin 4 → Str :=
  Fin.insertNth (α := fun _ => Str) k "E ".toList fun i =>
    '(' :: (", ".toList.intercalate ((vs i).axis.entries.map fun v => entryText fmt3 (letters i) v.val) ++ ") ".toList)

/-- An interval in the title. -/
def Spec.intervalOf (fmt4 : ℝ → Str) (name : Str) (lo hi : ℝ) : Str :=
  name ++ "= (".toList ++ fmt4 lo ++ ", ".toList ++ fmt4 hi ++ ")".toList

/-- The two integrated axes in the order of the title: the energy last. -/
def Spec.Integrated (k i j m1 m2 : Fin 4) : Prop :=
  (m1 ≠ i ∧ m1 ≠ j) ∧ (m2 ≠ i ∧ m2 ≠ j) ∧ m1 ≠ k ∧ (m2 = k ∨ m1 < m2)

/-- The points of a map: those inside both intervals, at their coordinates along the plotted axes. -/
noncomputable def Spec.cutPoints (k i j : Fin 4) (lo hi : Fin 4 → ℝ) (co : HPt → V3) (pts : List HPt) : List Pt2 :=
  (kept k i j lo hi co pts).map fun p => ⟨userCoord k (co p) p.e i, userCoord k (co p) p.e j, p.z, p.n⟩

/-! ## Labels -/

theorem item_userHkl (k : Fin 4) (vs : Fin 3 → HklVec) (z : Str) :
    (userHkl k vs z).map HklAxis.item = userAxes k (fun i => (vs i).vec) z := by
  fin_cases k <;> rfl

theorem forLabel_en : (HklAxis.name "en".toList).forLabel = .ok .en := by
  unfold HklAxis.forLabel
  dsimp only
  rw [if_pos rfl]

theorem cutLabels_ok (fmt3 : ℚ → Str) (k : Fin 4) (vs : Fin 3 → HklVec) (z : Str) :
    cutLabels fmt3 (userHkl k vs z) = labelLoop fmt3 [0, 1, 2] [(vs 0).axis, (vs 1).axis, (vs 2).axis, .en] := by
  unfold cutLabels
  rw [item_userHkl, enIndex_ok, py_bind_ok]
  have e : [HklAxis.vec (vs 0).a (vs 0).b (vs 0).c, .vec (vs 1).a (vs 1).b (vs 1).c, .vec (vs 2).a (vs 2).b (vs 2).c,
      .name "en".toList].mapM HklAxis.forLabel = .ok [(vs 0).axis, (vs 1).axis, (vs 2).axis, .en] := by
    simp only [List.mapM_cons, List.mapM_nil, forLabel_en]
    rfl
  have : ∀ ea : Option HklAxis, ea = some (.name "en".toList) →
      (userHkl k vs z).eraseIdx k = [HklAxis.vec (vs 0).a (vs 0).b (vs 0).c, .vec (vs 1).a (vs 1).b (vs 1).c, .vec (vs 2).a (vs 2).b (vs 2).c, .name z] →
      (need ea .indexError >>= fun ea =>
        ((((userHkl k vs z).eraseIdx k).take (((userHkl k vs z).eraseIdx k).length - 1) ++
          ea :: ((userHkl k vs z).eraseIdx k).drop (((userHkl k vs z).eraseIdx k).length - 1)).dropLast.mapM HklAxis.forLabel) >>= fun l =>
        labelLoop fmt3 [0, 1, 2] l) = labelLoop fmt3 [0, 1, 2] [(vs 0).axis, (vs 1).axis, (vs 2).axis, .en] := by
    rintro _ rfl h
    rw [need_some, py_bind_ok, h]
    refine Eq.trans (congrArg (fun x : Py (List LabelAxis) => x >>= fun l => labelLoop fmt3 [0, 1, 2] l) e) ?_
    rw [py_bind_ok]
  refine this _ ?_ ?_ <;> fin_cases k <;> rfl

theorem labels_ok (fmt3 : ℚ → Str) (vs : Fin 3 → HklVec) (hz : ∀ i, NonZero (vs i).axis) :
    ∃ letters, Letters vs letters ∧ labelLoop fmt3 [0, 1, 2] [(vs 0).axis, (vs 1).axis, (vs 2).axis, .en] =
      .ok [vectorText fmt3 (letters 0) (vs 0).axis, vectorText fmt3 (letters 1) (vs 1).axis,
        vectorText fmt3 (letters 2) (vs 2).axis, "E (meV)".toList] := by
  have hv : vectors [(vs 0).axis, (vs 1).axis, (vs 2).axis, .en] = [(vs 0).axis, (vs 1).axis, (vs 2).axis] := rfl
  obtain ⟨ks, ls, h1, h2, h3, h4, h5, h6⟩ := labelLoop_spec fmt3 [(vs 0).axis, (vs 1).axis, (vs 2).axis, .en] [0, 1, 2]
    (by decide) (by decide) (by rw [hv]; exact le_refl 3) (by
      intro p hp
      simp only [List.mem_cons, List.not_mem_nil, or_false] at hp
      rcases hp with rfl | rfl | rfl | rfl
      · exact hz 0
      · exact hz 1
      · exact hz 2
      · exact fun h => absurd rfl h)
  rw [hv] at h5 h6
  match ks, h5 with
  | [a, b, c], _ =>
    have ha : a < 3 := by have := h4 a (by simp); simp only [List.mem_cons, List.not_mem_nil, or_false] at this; omega
    have hb : b < 3 := by have := h4 b (by simp); simp only [List.mem_cons, List.not_mem_nil, or_false] at this; omega
    have hc : c < 3 := by have := h4 c (by simp); simp only [List.mem_cons, List.not_mem_nil, or_false] at this; omega
    have hne : a ≠ b ∧ a ≠ c ∧ b ≠ c := by
      simp only [List.nodup_cons, List.mem_cons, List.not_mem_nil, or_false, not_or] at h3
      tauto
    refine ⟨![hklLetter a, hklLetter b, hklLetter c], ⟨?_, ?_, ?_⟩, ?_⟩
    · intro i j hij
      fin_cases i <;> fin_cases j <;> first | rfl | skip
      · exact absurd (hklLetter_inj ha hb hij) hne.1
      · exact absurd (hklLetter_inj ha hc hij) hne.2.1
      · exact absurd (hklLetter_inj hb ha hij).symm hne.1
      · exact absurd (hklLetter_inj hb hc hij) hne.2.2
      · exact absurd (hklLetter_inj hc ha hij).symm hne.2.1
      · exact absurd (hklLetter_inj hc hb hij).symm hne.2.2
    · have hm : ∀ n, hklLetter n ∈ ['H', 'K', 'L'] := by
        intro n
        unfold hklLetter
        split <;> simp
      intro i
      fin_cases i <;> exact hm _
    · intro i ch ho hno
      have hch : ∃ n ∈ [0, 1, 2], hklLetter n = ch := by
        obtain ⟨n, v, _, _, _, h⟩ := ho
        match n, h with
        | 0, h => exact ⟨0, by simp, Option.some.inj h⟩
        | 1, h => exact ⟨1, by simp, Option.some.inj h⟩
        | 2, h => exact ⟨2, by simp, Option.some.inj h⟩
      obtain ⟨n, hn, rfl⟩ := hch
      fin_cases i
      · exact congrArg hklLetter (h6 0 (vs 0).axis a rfl rfl n hn ho (by simp))
      · refine congrArg hklLetter (h6 1 (vs 1).axis b rfl rfl n hn ho ?_)
        have := hno 0 (by decide)
        intro h
        simp only [List.take_succ_cons, List.take_zero, List.mem_cons, List.not_mem_nil, or_false] at h
        exact this (by rw [h]; rfl)
      · refine congrArg hklLetter (h6 2 (vs 2).axis c rfl rfl n hn ho ?_)
        have e0 := hno 0 (by decide)
        have e1 := hno 1 (by decide)
        intro h
        simp only [List.take_succ_cons, List.take_zero, List.mem_cons, List.not_mem_nil, or_false] at h
        rcases h with h | h
        · exact e0 (by rw [h]; rfl)
        · exact e1 (by rw [h]; rfl)
    · rw [h1]
      cases h2 with
      | vec h2 => cases h2 with
        | vec h2 => cases h2 with
          | vec h2 => cases h2 with
            | en h2 => cases h2; rfl

theorem label_pos (a b c d : Str) (k m : Fin 4) (f : Fin 3 → Str) (h0 : f 0 = a) (h1 : f 1 = b) (h2 : f 2 = c) :
    [a, b, c, d][newPos k m]? = some (Fin.insertNth (α := fun _ => Str) k d f m) := by
  subst h0 h1 h2
  fin_cases k <;> fin_cases m <;> rfl

/-- The places after the energy was moved to the end. -/
theorem notPlotted_four {α : Type} (k i j m1 m2 : Fin 4) (hij : i ≠ j) (h : Integrated k i j m1 m2) (d : α) (f : Fin 3 → α) :
    notPlotted (newPos k i) (newPos k j) [f 0, f 1, f 2, d] =
      [Fin.insertNth (α := fun _ => α) k d f m1, Fin.insertNth (α := fun _ => α) k d f m2] := by
  obtain ⟨⟨a, b⟩, ⟨c, e⟩, g, l⟩ := h
  have key : ∀ k i j m1 m2 : Fin 4, i ≠ j → m1 ≠ i → m1 ≠ j → m2 ≠ i → m2 ≠ j → m1 ≠ k → (m2 = k ∨ m1 < m2) →
      ((List.range 4).filter fun n => decide (n ≠ newPos k i ∧ n ≠ newPos k j)) = [newPos k m1, newPos k m2] := by
    decide
  have hk := key k i j m1 m2 hij a b c e g l
  have hz : [f 0, f 1, f 2, d].zipIdx = (List.range 4).map fun n => (([f 0, f 1, f 2, d][n]?).getD d, n) := rfl
  unfold notPlotted
  rw [hz, List.filter_map, List.map_map]
  rw [show ((fun p : α × ℕ => decide (p.2 ≠ newPos k i ∧ p.2 ≠ newPos k j)) ∘ fun n => (([f 0, f 1, f 2, d][n]?).getD d, n)) =
    fun n => decide (n ≠ newPos k i ∧ n ≠ newPos k j) from rfl, hk]
  have hp : ∀ k m : Fin 4, ([f 0, f 1, f 2, d][newPos k m]?).getD d = Fin.insertNth (α := fun _ => α) k d f m := by
    intro k m
    fin_cases k <;> fin_cases m <;> rfl
  simp only [List.map_cons, List.map_nil, Function.comp_apply, hp]

theorem stripParen_unit (a u : Str) (hu : ∀ c ∈ u, c ≠ '(' ∧ c ≠ ')') : stripParen (a ++ '(' :: (u ++ [')'])) = a := by
  have hd : ∀ (u' w : Str), (∀ c ∈ u', c ≠ '(' ∧ c ≠ ')') →
      (u' ++ '(' :: w).dropWhile (fun c => decide (c ≠ '(' ∧ c ≠ ')')) = '(' :: w := by
    intro u' w h
    induction u' with
    | nil => rfl
    | cons c u' ih =>
      rw [List.cons_append, List.dropWhile_cons, if_pos (decide_eq_true (h c (by simp)))]
      exact ih fun c hc => h c (by simp [hc])
  have hr : (a ++ '(' :: (u ++ [')'])).reverse = ')' :: (u.reverse ++ '(' :: a.reverse) := by simp
  unfold stripParen
  rw [hr]
  simp only []
  rw [hd _ _ fun c hc => hu c (List.mem_reverse.1 hc)]
  exact List.reverse_reverse a

theorem stripParen_axis (fmt3 : ℚ → Str) (k : Fin 4) (vs : Fin 3 → HklVec) (letters : Fin 3 → Char) (m : Fin 4) :
    stripParen (axisText fmt3 k vs letters m) = axisShort fmt3 k vs letters m := by
  have hv : ∀ i, stripParen (vectorText fmt3 (letters i) (vs i).axis) =
      '(' :: (", ".toList.intercalate ((vs i).axis.entries.map fun v => entryText fmt3 (letters i) v.val) ++ ") ".toList) := by
    intro i
    refine Eq.trans ?_ (stripParen_unit _ "r.l.u.".toList (by decide +kernel))
    refine congrArg stripParen ?_
    unfold vectorText
    rw [List.cons_append, List.append_assoc]
    rfl
  have he : stripParen "E (meV)".toList = "E ".toList := by decide +kernel
  unfold axisText axisShort
  refine Fin.succAboveCases (α := fun m => stripParen (Fin.insertNth (α := fun _ => Str) k "E (meV)".toList
    (fun i => vectorText fmt3 (letters i) (vs i).axis) m) = Fin.insertNth (α := fun _ => Str) k "E ".toList _ m) k ?_ ?_ m
  · rw [Fin.insertNth_apply_same, Fin.insertNth_apply_same, he]
  · intro i
    rw [Fin.insertNth_apply_succAbove, Fin.insertNth_apply_succAbove, hv]

/-! ## Members -/

theorem measuredH_unique {z ch : Str} (s : Scan) (p q : List HPt) (h : MeasuredH s z ch p) (h' : MeasuredH s z ch q) : p = q := by
  have e1 := Except.ok.inj (h.1.symm.trans h'.1)
  have e2 := Except.ok.inj (h.2.1.symm.trans h'.2.1)
  have e3 := Except.ok.inj (h.2.2.1.symm.trans h'.2.2.1)
  have e4 := Except.ok.inj (h.2.2.2.1.symm.trans h'.2.2.2.1)
  have e5 := Except.ok.inj (h.2.2.2.2.1.symm.trans h'.2.2.2.2.1)
  have e6 := Except.ok.inj (h.2.2.2.2.2.symm.trans h'.2.2.2.2.2)
  have hl : p.length = q.length := by simpa using congrArg List.length e1
  refine List.ext_getElem hl fun k hk hk' => ?_
  have f1 := congrArg (fun l : List Num => l[k]?) e1
  have f2 := congrArg (fun l : List Num => l[k]?) e2
  have f3 := congrArg (fun l : List Num => l[k]?) e3
  have f4 := congrArg (fun l : List Num => l[k]?) e4
  have f5 := congrArg (fun l : List Num => l[k]?) e5
  have f6 := congrArg (fun l : List Num => l[k]?) e6
  simp only [List.getElem?_map, List.getElem?_eq_getElem hk, List.getElem?_eq_getElem hk', Option.map_some, Option.some.injEq]
    at f1 f2 f3 f4 f5 f6
  cases hp : p[k]; cases hq : q[k]
  rw [hp, hq] at f1 f2 f3 f4 f5 f6
  simp_all

theorem measuredH_data {iso : Str → Py Str} {xml : List Str → Option Str} {fs : FS} {dir : List Str} {file : Str} {f : SpiceFile}
    {ds sn : Str} {s : ScanObj} (h : Loaded iso xml fs dir file f ds sn s) {sc : Scan} (hd : sc.data = numColumns s.data) {z ch : Str}
    {pts : List HPt} (hp : FilePointsH f z ch pts) : MeasuredH sc z ch pts := by
  have hc : ∀ {nm : Str} {l : List ℝ}, FileColumn f nm l → sc.col nm = .ok (l.map some) := by
    intro nm l hc
    unfold Scan.col
    rw [hd, numColumns_lookup (loaded_column h hc)]
    rfl
  obtain ⟨h1, h2, h3, h4, h5, h6⟩ := hp
  refine ⟨(hc h1).trans ?_, (hc h2).trans ?_, (hc h3).trans ?_, (hc h4).trans ?_, (hc h5).trans ?_, (hc h6).trans ?_⟩ <;>
    simp [List.map_map, Function.comp_def]

theorem cutScans_ok {l : List (MemberOf HPt)} (hne : l ≠ []) {z ch0 : Str} {v0 : ℝ} {normTo : Option (ℝ × Str)}
    (h : ∀ g ∈ l, g.Loaded ∧ FilePointsH g.file z (normTo.getD (v0, ch0)).2 g.pts)
    (hh : normTo = none → ∀ g ∈ l, ∃ x0 y0, NormalHeader g.file x0 y0 ch0 v0) :
    ∃ (views : List Scan) (pts : Scan → List HPt) (ch : Str) (v : ℝ), views ≠ [] ∧ views.flatMap pts = l.flatMap (·.pts) ∧
      cutScans (l.map (·.scan)) normTo = .ok (views, normTo.getD (v0, ch0)) ∧
      normalisation normTo ch v = normTo.getD (v0, ch0) ∧
      ∀ s ∈ views, MeasuredH s z (normTo.getD (v0, ch0)).2 (pts s) ∧ s.preset = .normal ch v := by
  cases normTo with
  | none =>
    obtain ⟨is, h1, _, h3, h4, pts, h5, h6⟩ := members_views (M := fun s p => MeasuredH s z ch0 p) measuredH_unique (l := l)
      (fun g hg => by
        obtain ⟨⟨iso, xml, fs, dir, file, ds, hl⟩, hp⟩ := h g hg
        exact ⟨⟨iso, xml, fs, dir, file, ds, hl⟩, hh rfl g hg, fun i => measuredH_data hl rfl hp⟩)
    have hvne := ne_nil_of_length h4 hne
    refine ⟨_, pts, ch0, v0, hvne, flatMap_of_map h5, ?_, rfl, fun s hs => ⟨(h6 s hs).1, (h6 s hs).2.1⟩⟩
    unfold cutScans groupNorm
    dsimp only
    rw [h1, py_bind_ok, if_pos h3, defaultRenorm_ok hvne fun sc hsc => (h6 sc hsc).2.1]
    rfl
  | some n =>
    obtain ⟨pts, hpts⟩ := pts_of (fun s p => MeasuredH s z n.2 p) measuredH_unique
    have hb : ∀ g ∈ l, MeasuredH g.scan.bare z n.2 g.pts := by
      intro g hg
      obtain ⟨⟨iso, xml, fs, dir, file, ds, hl⟩, hp⟩ := h g hg
      exact measuredH_data hl rfl hp
    refine ⟨(l.map (·.scan)).map ScanObj.bare, pts, [], 0, ?_, ?_, rfl, rfl, ?_⟩
    · intro h
      exact hne (List.map_eq_nil_iff.1 (List.map_eq_nil_iff.1 h))
    · rw [List.map_map]
      refine flatMap_of_map ?_
      rw [List.map_map]
      exact List.map_congr_left fun g hg => hpts (hb g hg)
    · intro s hs
      rw [List.map_map] at hs
      obtain ⟨g, hg, rfl⟩ := List.mem_map.1 hs
      have := hb g hg
      exact ⟨by rw [show pts ((ScanObj.bare ∘ fun x => x.scan) g) = g.pts from hpts this]; exact this, rfl⟩

/-! ## Cuts -/

/-- The parameters of the four axes. -/
theorem request_params {g : Fin 4 → RebinArg} {i j : Fin 4} {lo hi : Fin 4 → ℝ} {P : Fin 4 → RebinParams}
    (hr : HkleRequest g i j lo hi P) :
    ∃ P' : Fin 4 → RebinParams, (∀ m, formatRebin (g m) = .ok (P' m)) ∧
      (∀ m, isPair (g m) = decide (m ≠ i ∧ m ≠ j)) ∧ ∀ m, m ≠ i → m ≠ j → P' m = ⟨some (lo m), some (hi m), none⟩ := by
  obtain ⟨hij, hint, hplot⟩ := hr
  refine ⟨fun m => if m = i ∨ m = j then P m else ⟨some (lo m), some (hi m), none⟩, fun m => ?_, fun m => ?_, fun m h1 h2 => ?_⟩
  · by_cases h : m = i ∨ m = j
    · dsimp only; rw [if_pos h]; exact (hplot m h).2
    · dsimp only; rw [if_neg h]
      push Not at h
      obtain ⟨e, hlt⟩ := hint m h.1 h.2
      rw [e, C39_accepted_iff]
      exact ⟨.pair _ _, by simpa using hlt, by simp⟩
  · by_cases h : m = i ∨ m = j
    · rw [(hplot m h).1]; symm; rw [decide_eq_false_iff_not]; tauto
    · have h' : m ≠ i ∧ m ≠ j := by tauto
      rw [(hint m h'.1 h'.2).1, decide_eq_true h']; rfl
  · exact if_neg (by tauto)

theorem cutTitle_ok (fmt4 : ℝ → Str) (a b : Str) (p q : RebinParams) (l1 h1 l2 h2 : ℝ) (s1 s2 : Option ℝ)
    (hp : p = ⟨some l1, some h1, s1⟩) (hq : q = ⟨some l2, some h2, s2⟩) :
    cutTitle fmt4 [a, b] [p, q] =
      .ok (intervalOf fmt4 (stripParen a) l1 h1 ++ ", ".toList ++ intervalOf fmt4 (stripParen b) l2 h2) := by
  subst hp hq
  rfl

/-- **C95**: the cells of a cut hold the points of all the files that are inside both intervals, at their coefficients along the
vectors, with the counts per channel. The axes are labelled by the vectors, or as energy, in the user's order; the title tells the
normalisation and the intervals. -/
theorem C95_cut (fmt : Val → Str) (fmt3 : ℚ → Str) (fmt4 : ℝ → Str) (l : List (MemberOf HPt)) (hne : l ≠ []) (z ch0 : Str) (v0 : ℝ)
    (normTo : Option (ℝ × Str)) (h : ∀ g ∈ l, g.Loaded ∧ FilePointsH g.file z (normTo.getD (v0, ch0)).2 g.pts)
    (hh : normTo = none → ∀ g ∈ l, ∃ x0 y0, NormalHeader g.file x0 y0 ch0 v0)
    (hpos : ∀ g ∈ l, ∀ q ∈ g.pts, 0 ≤ q.z) (vs : Fin 3 → HklVec)
    (hdet : (colMat (vs 0).vec (vs 1).vec (vs 2).vec).det ≠ 0) (co : HPt → V3)
    (hco : ∀ p, co p 0 • (vs 0).vec + co p 1 • (vs 1).vec + co p 2 • (vs 2).vec = ![p.h, p.k, p.l])
    (k i j : Fin 4) (g : Fin 4 → RebinArg) (lo hi : Fin 4 → ℝ) (P : Fin 4 → RebinParams) (hr : HkleRequest g i j lo hi P)
    (ax bx : Axis) (ha : ax.For ((cutPoints k i j lo hi co (l.flatMap (·.pts))).map (·.x)) (P i))
    (hb : bx.For ((cutPoints k i j lo hi co (l.flatMap (·.pts))).map (·.y)) (P j)) (m1 m2 : Fin 4) (hm : Integrated k i j m1 m2) :
    ∃ r letters, combineCut fmt fmt3 fmt4 (l.map (·.scan)) (List.ofFn g) (userHkl k vs z) normTo = .ok r ∧
      r.data.x = table ax bx (fun a _ => some (ax.mn + a * ax.step)) ∧ r.data.y = table ax bx (fun _ b => some (bx.mn + b * bx.step)) ∧
      r.data.z = table ax bx (fun a b =>
        ratio (cellSum ax bx (cutPoints k i j lo hi co (l.flatMap (·.pts))) (·.z) a b * (normTo.getD (v0, ch0)).1)
          (cellSum ax bx (cutPoints k i j lo hi co (l.flatMap (·.pts))) (·.n) a b)) ∧
      r.data.err = table ax bx (fun a b =>
        ratio (√(cellSum ax bx (cutPoints k i j lo hi co (l.flatMap (·.pts))) (·.z) a b) * (normTo.getD (v0, ch0)).1)
          (cellSum ax bx (cutPoints k i j lo hi co (l.flatMap (·.pts))) (·.n) a b)) ∧
      Letters vs letters ∧
      MapLabelled fmt (intervalOf fmt4 (axisShort fmt3 k vs letters m1) (lo m1) (hi m1) ++ ", ".toList ++
          intervalOf fmt4 (axisShort fmt3 k vs letters m2) (lo m2) (hi m2))
        (axisText fmt3 k vs letters i) (axisText fmt3 k vs letters j) "detector".toList
        (normTo.getD (v0, ch0)).1 (normTo.getD (v0, ch0)).2 r := by
  obtain ⟨views, pts, ch, v, hv, he, hcut, hnorm, hms⟩ := cutScans_ok hne h hh
  have hnz : ∀ n, NonZero (vs n).axis := by
    intro n _
    by_contra hall
    push Not at hall
    have hvec : (vs n).vec = 0 := by
      have e1 := hall (vs n).a (by simp [HklVec.axis, LabelAxis.entries])
      have e2 := hall (vs n).b (by simp [HklVec.axis, LabelAxis.entries])
      have e3 := hall (vs n).c (by simp [HklVec.axis, LabelAxis.entries])
      unfold HklVec.vec
      rw [e1, e2, e3]
      ext m
      fin_cases m <;> simp
    apply hdet
    refine Matrix.det_eq_zero_of_column_eq_zero n fun m => ?_
    fin_cases n <;> fin_cases m <;> simp_all [colMat]
  obtain ⟨letters, hlet, hlab⟩ := labels_ok fmt3 vs hnz
  obtain ⟨P', hP, hpair, hint⟩ := request_params hr
  have hij : i ≠ j := hr.order.ne
  have hcells := C40_hkle hv (z := z) (ch0 := ch) (v0 := v) (normTo := normTo) (by rw [hnorm]; exact fun s hs => (hms s hs).1)
    (fun s hs => (hms s hs).2) (vs := fun n => (vs n).vec) hdet hco (k := k) hr
  rw [he, hnorm] at hcells
  have hq : ∀ q ∈ cutPoints k i j lo hi co (l.flatMap (·.pts)), 0 ≤ q.z := by
    intro q hq
    obtain ⟨p, hp, rfl⟩ := List.mem_map.1 hq
    obtain ⟨g, hg, hp⟩ := List.mem_flatMap.1 (List.mem_filter.1 hp).1
    exact hpos g hg p hp
  have hc36 := (C36_cells (v := (normTo.getD (v0, ch0)).1) (col := none)
    (norm := some ((cutPoints k i j lo hi co (l.flatMap (·.pts))).map fun p => some p.n)) ha hb hq).2 (.inr ⟨rfl, rfl⟩)
  replace hcells := hcells.trans hc36
  have hpar : [g (k.succAbove 0), g (k.succAbove 1), g (k.succAbove 2), g k].mapM formatRebin =
      .ok [P' (k.succAbove 0), P' (k.succAbove 1), P' (k.succAbove 2), P' k] := by
    simp only [List.mapM_cons, List.mapM_nil, hP, py_bind_ok]; rfl
  have hins : ∀ m, Fin.insertNth (α := fun _ => RebinParams) k (P' k) (fun n => P' (k.succAbove n)) m = P' m := by
    intro m
    exact congrFun (Fin.insertNth_self_removeNth k P') m
  obtain ⟨⟨a1, a2⟩, ⟨b1, b2⟩, _⟩ := id hm
  have htitle := cutTitle_ok fmt4 (axisText fmt3 k vs letters m1) (axisText fmt3 k vs letters m2) (P' m1) (P' m2) (lo m1) (hi m1)
    (lo m2) (hi m2) none none (hint m1 a1 a2) (hint m2 b1 b2)
  rw [stripParen_axis, stripParen_axis] at htitle
  obtain ⟨r, hr', hdat, hml⟩ := labelled_ok fmt
    { x := table ax bx fun a _ => some (ax.mn + a * ax.step), y := table ax bx fun _ b => some (bx.mn + b * bx.step),
      z := table ax bx fun a b =>
        ratio (cellSum ax bx (cutPoints k i j lo hi co (l.flatMap (·.pts))) (·.z) a b * (normTo.getD (v0, ch0)).1)
          (cellSum ax bx (cutPoints k i j lo hi co (l.flatMap (·.pts))) (·.n) a b),
      err := table ax bx fun a b =>
        ratio (√(cellSum ax bx (cutPoints k i j lo hi co (l.flatMap (·.pts))) (·.z) a b) * (normTo.getD (v0, ch0)).1)
          (cellSum ax bx (cutPoints k i j lo hi co (l.flatMap (·.pts))) (·.n) a b) }
    (axisText fmt3 k vs letters i) (axisText fmt3 k vs letters j) "detector".toList (normTo.getD (v0, ch0))
    (intervalOf fmt4 (axisShort fmt3 k vs letters m1) (lo m1) (hi m1) ++ ", ".toList ++
      intervalOf fmt4 (axisShort fmt3 k vs letters m2) (lo m2) (hi m2))
  refine ⟨r, letters, ?_, by rw [hdat], by rw [hdat], by rw [hdat], by rw [hdat], hlet, hml⟩
  have hro := reorder_ok (k := k) (vs := fun n => (vs n).vec) (z := z) hr.order hpair
  have hlp : ∀ m, [vectorText fmt3 (letters 0) (vs 0).axis, vectorText fmt3 (letters 1) (vs 1).axis,
      vectorText fmt3 (letters 2) (vs 2).axis, "E (meV)".toList][newPos k m]? = some (axisText fmt3 k vs letters m) :=
    fun m => label_pos _ _ _ _ k m (fun n => vectorText fmt3 (letters n) (vs n).axis) rfl rfl rfl
  have hn1 : notPlotted (newPos k i) (newPos k j) [vectorText fmt3 (letters 0) (vs 0).axis, vectorText fmt3 (letters 1) (vs 1).axis,
      vectorText fmt3 (letters 2) (vs 2).axis, "E (meV)".toList] = [axisText fmt3 k vs letters m1, axisText fmt3 k vs letters m2] :=
    notPlotted_four k i j m1 m2 hij hm "E (meV)".toList fun n => vectorText fmt3 (letters n) (vs n).axis
  have hn2 : notPlotted (newPos k i) (newPos k j) [P' (k.succAbove 0), P' (k.succAbove 1), P' (k.succAbove 2), P' k] =
      [P' m1, P' m2] := by
    have := notPlotted_four k i j m1 m2 hij hm (P' k) fun n => P' (k.succAbove n)
    rw [hins, hins] at this
    exact this
  unfold combineCut
  rw [hcut, py_bind_ok, item_userHkl, hcells, py_bind_ok, hro, py_bind_ok, cutLabels_ok, hlab, py_bind_ok, hpar, py_bind_ok, hlp,
    need_some, py_bind_ok, hlp, need_some, py_bind_ok, hn1, hn2, htitle, py_bind_ok]
  exact hr'

/-- **C95** (finding): whichever column a cut shows, its counts are called `detector`. -/
theorem C95_name_lost (fmt : Val → Str) (fmt3 : ℚ → Str) (fmt4 : ℝ → Str) (scans : List ScanObj) (grid : List RebinArg)
    (axes : List HklAxis) (v : ℝ) (ch : Str) (r : LabelledMap)
    (h : combineCut fmt fmt3 fmt4 scans grid axes (some (v, ch)) = .ok r) : r.zlabel = perText fmt "detector".toList v ch := by
  unfold combineCut cutScans at h
  dsimp only at h
  rw [py_bind_ok] at h
  obtain ⟨d, _, h⟩ := py_bind_eq_ok.1 h
  obtain ⟨o, _, h⟩ := py_bind_eq_ok.1 h
  obtain ⟨labels, _, h⟩ := py_bind_eq_ok.1 h
  obtain ⟨params, _, h⟩ := py_bind_eq_ok.1 h
  obtain ⟨lx, _, h⟩ := py_bind_eq_ok.1 h
  obtain ⟨ly, _, h⟩ := py_bind_eq_ok.1 h
  obtain ⟨title, _, h⟩ := py_bind_eq_ok.1 h
  obtain ⟨r', h', _, hl⟩ := labelled_ok fmt d lx ly "detector".toList (v, ch) title
  obtain rfl := Except.ok.inj (h'.symm.trans h)
  exact hl.zlabel

/-! ## What cannot be combined -/

section
variable {P : Type} {l : List (MemberOf P)}

/-- What the members report. -/
theorem members_info {ax ay ch : MemberOf P → Str} {v : MemberOf P → ℝ}
    (h : ∀ g ∈ l, g.Loaded ∧ NormalHeader g.file (ax g) (ay g) (ch g) (v g)) :
    ∃ is : List ScanInfo, (l.map (·.scan)).mapM scanInfo = .ok is ∧ (is.all fun i => i.preset.plain) = true ∧
      (List.zipWith ScanObj.view (l.map (·.scan)) is).map (·.preset) = l.map (fun g => .normal (ch g) (v g)) ∧
      (is.map fun i => (textOrEmpty (some i.defX), textOrEmpty (some i.defY))) = l.map fun g => (ax g, ay g) := by
  induction l with
  | nil => exact ⟨[], rfl, rfl, rfl, rfl⟩
  | cons g l ih =>
    obtain ⟨is, h1, h2, h3, h4⟩ := ih fun g hg => h g (List.mem_cons_of_mem _ hg)
    obtain ⟨⟨iso, xml, fs, dir, file, ds, hl⟩, hd⟩ := h g List.mem_cons_self
    obtain ⟨i, hi, hx, hy, _, _, hpre⟩ := normal_info hl hd
    refine ⟨i :: is, ?_, ?_, ?_, ?_⟩
    · rw [List.map_cons, List.mapM_cons, hi, py_bind_ok, h1, py_bind_ok]; rfl
    · rw [List.all_cons, h2, hpre]; rfl
    · rw [List.map_cons, List.zipWith_cons_cons, List.map_cons, List.map_cons, h3]
      refine congrArg (· :: _) ?_
      show presetView i.preset = _
      rw [hpre]; rfl
    · rw [List.map_cons, List.map_cons, h4, hx, hy]; rfl

theorem mixed_renorm {α : Type} {l : List α} {views : List Scan} {ch : α → Str} {v : α → ℝ}
    (hp : views.map (·.preset) = l.map fun g => .normal (ch g) (v g)) {a b : α} (ha : a ∈ l) (hb : b ∈ l)
    (hd : ch a ≠ ch b ∨ v a ≠ v b) : defaultRenorm views = .error .valueError := by
  have hm : (views.mapM fun s => match s.preset with
      | .normal ch v => (pure (v, ch) : Py (ℝ × Str))
      | .countfile _ _ _ => .error .typeError) = .ok (l.map fun g => (v g, ch g)) := by
    clear ha hb hd
    induction views generalizing l with
    | nil => cases l with
      | nil => rfl
      | cons g l => exact absurd hp (by simp)
    | cons s views ih => cases l with
      | nil => exact absurd hp (by simp)
      | cons g l =>
        rw [List.map_cons, List.map_cons] at hp
        obtain ⟨e1, e2⟩ := List.cons.inj hp
        rw [List.mapM_cons, e1, ih e2]
        rfl
  unfold defaultRenorm
  refine Eq.trans (congrArg (fun x : Py (List (ℝ × Str)) => x >>= _) hm) ?_
  rw [py_bind_ok]
  cases l with
  | nil => exact absurd ha (by simp)
  | cons g l =>
    rw [List.map_cons]
    dsimp only
    rw [if_neg]
    intro hall
    have hg : ∀ c ∈ g :: l, (v c, ch c) = (v g, ch g) := by
      intro c hc
      rcases List.mem_cons.1 hc with rfl | hc
      · rfl
      · exact hall _ (List.mem_map.2 ⟨c, hc, rfl⟩)
    have e := (hg a ha).trans (hg b hb).symm
    rcases hd with hd | hd
    · exact hd (Prod.mk.inj e).2
    · exact hd (Prod.mk.inj e).1

/-- **C95**: scans counted up to different values, or of different channels, are not combined without a normalisation to a common
one, neither as a curve nor as a map or a cut. -/
theorem C95_mixed (fmt : Val → Str) (fmt3 : ℚ → Str) (fmt4 : ℝ → Str) (l : List (MemberOf P)) (ax ay ch : MemberOf P → Str)
    (v : MemberOf P → ℝ) (h : ∀ g ∈ l, g.Loaded ∧ NormalHeader g.file (ax g) (ay g) (ch g) (v g)) (a b : MemberOf P) (ha : a ∈ l)
    (hb : b ∈ l) (hd : ch a ≠ ch b ∨ v a ≠ v b) (x y z : Str) :
    (∀ grid tol r, combineObjs fmt (l.map (·.scan)) x y none grid tol ≠ .ok r) ∧
    (∀ grid r, combineMap fmt (l.map (·.scan)) x y z none grid ≠ .ok r) ∧
    ∀ grid axes, combineCut fmt fmt3 fmt4 (l.map (·.scan)) grid axes none = .error .valueError := by
  obtain ⟨is, h1, h2, h3, _⟩ := members_info h
  have hn : groupNorm is (List.zipWith ScanObj.view (l.map (·.scan)) is) none = .error .valueError := by
    unfold groupNorm
    dsimp only
    rw [if_pos h2]
    exact mixed_renorm h3 ha hb hd
  refine ⟨fun grid tol r hr => ?_, fun grid r hr => ?_, fun grid axes => ?_⟩
  · unfold combineObjs at hr
    rw [h1, py_bind_ok] at hr
    obtain ⟨d, _, hr⟩ := py_bind_eq_ok.1 hr
    rw [hn] at hr
    exact nomatch hr
  · unfold combineMap at hr
    rw [h1, py_bind_ok] at hr
    obtain ⟨d, _, hr⟩ := py_bind_eq_ok.1 hr
    rw [hn] at hr
    exact nomatch hr
  · unfold combineCut cutScans
    dsimp only
    rw [h1, py_bind_ok, hn]
    rfl

/-- **C95**: without axes, the default axes of the files are taken if all have the same; else nothing is combined. -/
theorem C95_default (fmt : Val → Str) (l : List (MemberOf P)) (hne : l ≠ []) (ax ay ch : MemberOf P → Str)
    (v : MemberOf P → ℝ) (h : ∀ g ∈ l, g.Loaded ∧ NormalHeader g.file (ax g) (ay g) (ch g) (v g)) (normTo : Option (ℝ × Str))
    (grid tol : Option RebinArg) :
    (∀ x y, (∀ g ∈ l, ax g = x ∧ ay g = y) →
      combineObjsDefault fmt (l.map (·.scan)) normTo grid tol = combineObjs fmt (l.map (·.scan)) x y normTo grid tol) ∧
    ∀ a ∈ l, ∀ b ∈ l, (ax a ≠ ax b ∨ ay a ≠ ay b) →
      combineObjsDefault fmt (l.map (·.scan)) normTo grid tol = .error .valueError := by
  obtain ⟨is, h1, _, _, h4⟩ := members_info h
  unfold combineObjsDefault
  rw [h1, py_bind_ok, h4]
  cases l with
  | nil => exact absurd rfl hne
  | cons g l =>
    constructor
    · intro x y hxy
      obtain ⟨rfl, rfl⟩ := hxy g List.mem_cons_self
      rw [List.map_cons (l := l) (f := fun g => (ax g, ay g)), commonAxes, if_pos, py_bind_ok]
      refine ⟨?_, ?_⟩ <;>
      · intro q hq
        obtain ⟨c, hc, rfl⟩ := List.mem_map.1 hq
        first
        | exact (hxy c (List.mem_cons_of_mem _ hc)).1
        | exact (hxy c (List.mem_cons_of_mem _ hc)).2
    · intro a ha b hb hd
      rw [List.map_cons (l := l) (f := fun g => (ax g, ay g)), commonAxes, if_neg]
      · rfl
      rintro ⟨hx, hy⟩
      have hg : ∀ c ∈ g :: l, ax c = ax g ∧ ay c = ay g := by
        intro c hc
        rcases List.mem_cons.1 hc with rfl | hc
        · exact ⟨rfl, rfl⟩
        · exact ⟨hx _ (List.mem_map.2 ⟨c, hc, rfl⟩), hy _ (List.mem_map.2 ⟨c, hc, rfl⟩)⟩
      rcases hd with hd | hd
      · exact hd ((hg a ha).1.trans (hg b hb).1.symm)
      · exact hd ((hg a ha).2.trans (hg b hb).2.symm)

end

end Tavi
