import Verif.Props.ScanCut
import Verif.Props.ScanPlotDemo

/-!
# Maps of two loaded scans (cases for C95)
-/

namespace Tavi

open Spec

namespace Demo

/-- Two energy scans at two places. -/
def sliceLines1 : List Str :=
  headerLines ++ ["# preset_type = normal\n", "# preset_channel = mcu\n", "# preset_value = 50.000000\n", "# col_headers =\n",
    "#   Pt.  h  k  l  e  detector  monitor  mcu\n", "   1  1  1  0  2  22  210000  50\n", "   2  1  1  0  4  36  210000  50\n"].map String.toList

def sliceLines2 : List Str :=
  headerLines ++ ["# preset_type = normal\n", "# preset_channel = mcu\n", "# preset_value = 50.000000\n", "# col_headers =\n",
    "#   Pt.  h  k  l  e  detector  monitor  mcu\n", "   1  2  2  0  2  7  210000  50\n", "   2  2  2  0  4  9  210000  50\n"].map String.toList

/-- The same scan counted for longer. -/
def sliceLines3 : List Str :=
  headerLines ++ ["# preset_type = normal\n", "# preset_channel = mcu\n", "# preset_value = 60.000000\n", "# col_headers =\n",
    "#   Pt.  h  k  l  e  detector  monitor  mcu\n", "   1  2  2  0  2  7  210000  60\n"].map String.toList

/-- The columns of the files. -/
def sliceCols (h : ℚ) (a b : ℚ) : List (Str × List (Option ℚ)) :=
  [("Pt.".toList, [some 1, some 2]), ("h".toList, [some h, some h]), ("k".toList, [some h, some h]), ("l".toList, [some 0, some 0]),
   ("e".toList, [some 2, some 4]), ("detector".toList, [some a, some b]), ("monitor".toList, [some 210000, some 210000]),
   ("mcu".toList, [some 50, some 50])]

def longCols : List (Str × List (Option ℚ)) :=
  [("Pt.".toList, [some 1]), ("h".toList, [some 2]), ("k".toList, [some 2]), ("l".toList, [some 0]),
   ("e".toList, [some 2]), ("detector".toList, [some 7]), ("monitor".toList, [some 210000]), ("mcu".toList, [some 60])]

/-- The header of the third scan. -/
def longMeta : List (Str × MetaVal) :=
  headerMeta ++ [("preset_type".toList, .str "normal".toList), ("preset_channel".toList, .str "mcu".toList),
   ("preset_value".toList, .str "60.000000".toList)]

/-- The disk with the scans. -/
def sliceDisk : FS := fun p =>
  if p = ["exp".toList] ∨ p = ["exp".toList, "Datafiles".toList] then some .folder
  else if p = ["exp".toList, "Datafiles".toList, "HB1A_exp0266_scan0041.dat".toList] then some (.file sliceLines1)
  else if p = ["exp".toList, "Datafiles".toList, "HB1A_exp0266_scan0042.dat".toList] then some (.file sliceLines2)
  else if p = ["exp".toList, "Datafiles".toList, "HB1A_exp0266_scan0043.dat".toList] then some (.file sliceLines3)
  else none

theorem slice_no_ub (p : List Str) : sliceDisk ("exp".toList :: "UBConf".toList :: p) = none := by
  unfold sliceDisk
  have h1 : ∀ q : List Str, ("exp".toList :: "UBConf".toList :: p : List Str) ≠ "exp".toList :: "Datafiles".toList :: q := by
    intro q h
    have := (List.cons.inj (List.cons.inj h).2).1
    exact absurd this (by decide)
  rw [if_neg, if_neg (h1 _), if_neg (h1 _), if_neg (h1 _)]
  rintro (h | h)
  · exact absurd (List.cons.inj h).2 (by simp)
  · exact h1 [] h

theorem slice1_loaded : ∃ (f : SpiceFile) (s : ScanObj), f.metadata = normalMeta ∧ columns f = sliceCols 1 22 36 ∧
    Loaded plainDate (fun _ => none) sliceDisk loadDir "HB1A_exp0266_scan0041.dat".toList f [] (scanName 41) s := by
  obtain ⟨f, hf, hc, hm, d, hd⟩ := loads (disk := sliceDisk) (name := "HB1A_exp0266_scan0041.dat".toList) (lines := sliceLines1)
    (cols := sliceCols 1 22 36) (md := normalMeta)
    (by rw [sliceDisk, if_neg (by decide +kernel), if_pos (by decide +kernel)]) (by decide +kernel) slice_no_ub
    (by decide +kernel) (by decide +kernel)
  obtain ⟨s, hs⟩ := bare_scan hf (by rw [hm]; decide) hd (by rw [hc]; decide +kernel) (by decide) (scanName 41)
  exact ⟨f, _, hm, hc, loaded_of hf hd hs []⟩

theorem slice2_loaded : ∃ (f : SpiceFile) (s : ScanObj), f.metadata = normalMeta ∧ columns f = sliceCols 2 7 9 ∧
    Loaded plainDate (fun _ => none) sliceDisk loadDir "HB1A_exp0266_scan0042.dat".toList f [] (scanName 42) s := by
  obtain ⟨f, hf, hc, hm, d, hd⟩ := loads (disk := sliceDisk) (name := "HB1A_exp0266_scan0042.dat".toList) (lines := sliceLines2)
    (cols := sliceCols 2 7 9) (md := normalMeta)
    (by rw [sliceDisk, if_neg (by decide +kernel), if_neg (by decide +kernel), if_pos (by decide +kernel)]) (by decide +kernel)
    slice_no_ub (by decide +kernel) (by decide +kernel)
  obtain ⟨s, hs⟩ := bare_scan hf (by rw [hm]; decide) hd (by rw [hc]; decide +kernel) (by decide) (scanName 42)
  exact ⟨f, _, hm, hc, loaded_of hf hd hs []⟩

theorem slice3_loaded : ∃ (f : SpiceFile) (s : ScanObj), f.metadata = longMeta ∧ columns f = longCols ∧
    Loaded plainDate (fun _ => none) sliceDisk loadDir "HB1A_exp0266_scan0043.dat".toList f [] (scanName 43) s := by
  obtain ⟨f, hf, hc, hm, d, hd⟩ := loads (disk := sliceDisk) (name := "HB1A_exp0266_scan0043.dat".toList) (lines := sliceLines3)
    (cols := longCols) (md := longMeta)
    (by rw [sliceDisk, if_neg (by decide +kernel), if_neg (by decide +kernel), if_neg (by decide +kernel), if_pos (by decide +kernel)])
    (by decide +kernel) slice_no_ub (by decide +kernel) (by decide +kernel)
  obtain ⟨s, hs⟩ := bare_scan hf (by rw [hm]; decide) hd (by rw [hc]; decide +kernel) (by decide) (scanName 43)
  exact ⟨f, _, hm, hc, loaded_of hf hd hs []⟩

/-- The points of a scan. -/
def slicePts (h a b : ℝ) : List HPt := [⟨h, h, 0, 2, a, 50⟩, ⟨h, h, 0, 4, b, 50⟩]

theorem slice_column {f : SpiceFile} {h a b : ℚ} (hc : columns f = sliceCols h a b) {c nm : Str} {int : Bool}
    (hk : KnownColumn (Polarized f) 0 c nm int) {qs : List (Option ℚ)} (hq : lookupKey c (sliceCols h a b) = some qs)
    (hn : '_' ∉ nm) : FileNums f nm (shown int qs) := by
  have hfst : (sliceCols h a b).map Prod.fst = (sliceCols 0 0 0).map Prod.fst := rfl
  refine ⟨0, c, int, qs, ?_, hk, by rw [hc]; exact hq, fun i hi => ?_, rfl⟩
  · rw [hc, hfst]
    exact ⟨fun i h1 h2 => absurd (h1.trans h2) (by decide), by decide +kernel⟩
  · exact absurd (by rw [hi]; simp [withNumber]) hn

theorem slice_points {f : SpiceFile} (hm : f.metadata = normalMeta) {h a b : ℤ} (hc : columns f = sliceCols h a b) :
    FilePointsH f "detector".toList "mcu".toList (slicePts h a b) := by
  have hp : ¬ Polarized f := by unfold Polarized header; rw [hm]; decide
  have hz : ∀ n : ℤ, toZero (n : ℚ) = n := fun n => by
    unfold toZero
    have e : ⌊-(n : ℚ)⌋ = -n := by rw [← Int.cast_neg, Int.floor_intCast]
    simp [e]
  have e1 := slice_column hc (c := "h".toList) (nm := "qh".toList) (.renamed (by decide)) (qs := [some h, some h]) rfl (by decide)
  have e2 := slice_column hc (c := "k".toList) (nm := "qk".toList) (.renamed (by decide)) (qs := [some h, some h]) rfl (by decide)
  have e3 := slice_column hc (c := "l".toList) (nm := "ql".toList) (.renamed (by decide)) (qs := [some 0, some 0]) rfl (by decide)
  have e4 := slice_column hc (c := "e".toList) (nm := "en".toList) (.renamed (by decide)) (qs := [some 2, some 4]) rfl (by decide)
  have e5 := slice_column hc (c := "detector".toList) (nm := "detector".toList) .detector (qs := [some a, some b]) rfl (by decide)
  have e6 := slice_column hc (c := "mcu".toList) (nm := "mcu".toList) (.mcu hp) (qs := [some 50, some 50]) rfl (by decide)
  refine ⟨?_, ?_, ?_, ?_, ?_, ?_⟩
  · simpa [slicePts, FileColumn, shown] using e1
  · simpa [slicePts, FileColumn, shown] using e2
  · simpa [slicePts, FileColumn, shown] using e3
  · simpa [slicePts, FileColumn, shown] using e4
  · simpa [slicePts, FileColumn, shown, hz] using e5
  · simpa [slicePts, FileColumn, shown] using e6

/-- Both scans with their points along the scattering vector, or as points of a map of energies and positions. -/
theorem slice_points2 {f : SpiceFile} (hm : f.metadata = normalMeta) {h a b : ℤ} (hc : columns f = sliceCols h a b) :
    FilePoints2 f "qh".toList "en".toList "detector".toList "mcu".toList [⟨h, 2, a, 50⟩, ⟨h, 4, b, 50⟩] := by
  obtain ⟨e1, _, _, e4, e5, e6⟩ := slice_points hm hc
  exact ⟨e1, e4, e5, e6⟩

/-- The vectors along (1, 1, 0), (-1, 1, 0) and (0, 0, 1). -/
def sliceVecs : Fin 3 → HklVec :=
  ![⟨.int 1, .int 1, .int 0⟩, ⟨.int (-1), .int 1, .int 0⟩, ⟨.int 0, .int 0, .int 1⟩]

noncomputable def sliceCo (p : HPt) : V3 := ![(p.h + p.k) / 2, (p.k - p.h) / 2, p.l]

theorem slice_co (p : HPt) : sliceCo p 0 • (sliceVecs 0).vec + sliceCo p 1 • (sliceVecs 1).vec + sliceCo p 2 • (sliceVecs 2).vec =
    ![p.h, p.k, p.l] := by
  ext i
  fin_cases i <;> simp [sliceCo, sliceVecs, HklVec.vec, LabelNum.val] <;> ring

theorem slice_det : (colMat (sliceVecs 0).vec (sliceVecs 1).vec (sliceVecs 2).vec).det ≠ 0 := by
  rw [Matrix.det_fin_three]
  simp [colMat, sliceVecs, HklVec.vec, LabelNum.val]

theorem slice_request : HkleRequest ![.num 1, .num 2, .tup2 (some (-1)) (some 1), .tup2 (some (-1)) (some 1)] 0 1 (fun _ => -1) (fun _ => 1)
    ![⟨none, none, some 1⟩, ⟨none, none, some 2⟩, {}, {}] := by
  refine ⟨by decide, fun m h0 h1 => ?_, fun m h => ?_⟩
  · fin_cases m
    · exact absurd rfl h0
    · exact absurd rfl h1
    · exact ⟨rfl, by norm_num⟩
    · exact ⟨rfl, by norm_num⟩
  · rcases h with rfl | rfl
    · exact ⟨rfl, (C39_accepted_iff _ _).2 ⟨.step _, by simp, by norm_num⟩⟩
    · exact ⟨rfl, (C39_accepted_iff _ _).2 ⟨.step _, by simp, by norm_num⟩⟩

theorem slice_cut : cutPoints 1 0 1 (fun _ => -1) (fun _ => 1) sliceCo (slicePts 1 22 36 ++ slicePts 2 7 9) =
    [⟨1, 2, 22, 50⟩, ⟨1, 4, 36, 50⟩, ⟨2, 2, 7, 50⟩, ⟨2, 4, 9, 50⟩] := by
  have hin : ∀ (h e z : ℝ) (m : Fin 4), m ≠ 0 → m ≠ 1 → -1 < userCoord 1 (sliceCo ⟨h, h, 0, e, z, 50⟩) e m ∧
      userCoord 1 (sliceCo ⟨h, h, 0, e, z, 50⟩) e m < 1 := by
    intro h e z m h0 h1
    fin_cases m
    · exact absurd rfl h0
    · exact absurd rfl h1
    · rw [show userCoord 1 (sliceCo ⟨h, h, 0, e, z, 50⟩) e ⟨2, by decide⟩ = (h - h) / 2 from rfl]; norm_num
    · rw [show userCoord 1 (sliceCo ⟨h, h, 0, e, z, 50⟩) e ⟨3, by decide⟩ = 0 from rfl]; norm_num
  unfold cutPoints kept
  rw [List.filter_eq_self.2]
  · have h0 : ∀ (h e z : ℝ), userCoord 1 (sliceCo ⟨h, h, 0, e, z, 50⟩) e 0 = (h + h) / 2 := fun _ _ _ => rfl
    have h1 : ∀ (h e z : ℝ), userCoord 1 (sliceCo ⟨h, h, 0, e, z, 50⟩) e 1 = e := fun _ _ _ => rfl
    simp only [slicePts, List.cons_append, List.nil_append, List.map_cons, List.map_nil, h0, h1]
    norm_num
  · intro p hp
    simp only [slicePts, List.cons_append, List.nil_append, List.mem_cons, List.not_mem_nil, or_false] at hp
    rcases hp with rfl | rfl | rfl | rfl <;> exact decide_eq_true (hin _ _ _)

theorem two_steps (mn st : ℝ) (h : 0 < st) : BinCount mn (mn + st) st 2 := by
  intro j
  constructor
  · intro hj
    interval_cases j
    · push_cast; nlinarith
    · push_cast; nlinarith
  · intro hj
    by_contra hc
    have : (2 : ℝ) ≤ j := by exact_mod_cast not_lt.1 hc
    nlinarith

/-- The two scans as a cut: positions along (H, H, 0) against energies, the energy listed second; normalised to one monitor unit. -/
example (fmt : Val → Str) (fmt3 : ℚ → Str) (fmt4 : ℝ → Str) : ∃ (s t : ScanObj) (r : LabelledMap),
    combineCut fmt fmt3 fmt4 [s, t] (List.ofFn ![.num 1, .num 2, .tup2 (some (-1)) (some 1), .tup2 (some (-1)) (some 1)])
      [.vec (.int 1) (.int 1) (.int 0), .name "en".toList, .vec (.int (-1)) (.int 1) (.int 0), .vec (.int 0) (.int 0) (.int 1),
        .name "detector".toList] (some (1, "mcu".toList)) = .ok r ∧
    r.data.x = [[some 1, some 1], [some 2, some 2]] ∧ r.data.y = [[some 2, some 4], [some 2, some 4]] ∧
    r.xlabel = "(H, H, 0) (r.l.u.)".toList ∧ r.ylabel = "E (meV)".toList ∧ r.zlabel = "detector/ mcu".toList := by
  obtain ⟨f, s, hm, hc, h⟩ := slice1_loaded
  obtain ⟨f', t, hm', hc', h'⟩ := slice2_loaded
  have hall := slice_cut
  obtain ⟨r, letters, h1, h2, h3, _, _, h4, h5⟩ := C95_cut fmt fmt3 fmt4 [⟨s, f, 41, slicePts 1 22 36⟩, ⟨t, f', 42, slicePts 2 7 9⟩] (by simp)
    "detector".toList [] 0 (some (1, "mcu".toList))
    (by
      intro g hg
      rcases List.mem_cons.1 hg with rfl | hg
      · refine ⟨⟨_, _, _, _, _, _, h⟩, ?_⟩
        have := slice_points (h := 1) (a := 22) (b := 36) hm (by simpa using hc)
        simpa using this
      · obtain rfl := List.mem_singleton.1 hg
        refine ⟨⟨_, _, _, _, _, _, h'⟩, ?_⟩
        have := slice_points (h := 2) (a := 7) (b := 9) hm' (by simpa using hc')
        simpa using this)
    (by simp)
    (by
      intro g hg q hq
      rcases List.mem_cons.1 hg with rfl | hg
      · simp only [slicePts, List.mem_cons, List.not_mem_nil, or_false] at hq
        rcases hq with rfl | rfl <;> norm_num
      · obtain rfl := List.mem_singleton.1 hg
        simp only [slicePts, List.mem_cons, List.not_mem_nil, or_false] at hq
        rcases hq with rfl | rfl <;> norm_num)
    sliceVecs slice_det sliceCo slice_co 1 0 1 _ _ _ _ slice_request ⟨1, 1, 2⟩ ⟨2, 2, 2⟩
    (by
      show Axis.For _ ((cutPoints 1 0 1 (fun _ => -1) (fun _ => 1) sliceCo (slicePts 1 22 36 ++ slicePts 2 7 9)).map (·.x)) _
      rw [hall]
      refine ⟨1 + 1, ⟨.inr ⟨rfl, by simp, by simp⟩, .inr ⟨rfl, by norm_num, by norm_num⟩, rfl, by norm_num, by norm_num⟩, two_steps _ _ (by norm_num)⟩)
    (by
      show Axis.For _ ((cutPoints 1 0 1 (fun _ => -1) (fun _ => 1) sliceCo (slicePts 1 22 36 ++ slicePts 2 7 9)).map (·.y)) _
      rw [hall]
      refine ⟨2 + 2, ⟨.inr ⟨rfl, by simp, by norm_num⟩, .inr ⟨rfl, by norm_num, by norm_num⟩, rfl, by norm_num, by norm_num⟩, two_steps _ _ (by norm_num)⟩)
    2 3 ⟨by decide, by decide, by decide, by decide⟩
  refine ⟨s, t, r, h1, ?_, ?_, ?_, ?_, ?_⟩
  · rw [h2]
    simp [table, List.range_succ]; norm_num
  · rw [h3]
    simp [table, List.range_succ]; norm_num
  · have e : letters 0 = 'H' := h4.own 0 'H' ⟨0, .int 1, rfl, by decide, fun j w hj => absurd hj (by simp), rfl⟩ (fun j hj => absurd hj (by simp))
    rw [h5.xlabel]
    show vectorText fmt3 (letters 0) (sliceVecs 0).axis = _
    rw [e]
    rfl
  · rw [h5.ylabel]; rfl
  · rw [h5.zlabel]
    simp [perText]

/-- The two scans as a map, point by point. -/
example (fmt : Val → Str) : ∃ (s t : ScanObj) (r : LabelledMap),
    combineMap fmt [s, t] "qh".toList "en".toList "detector".toList (some (1, "mcu".toList)) none = .ok r ∧
    r.data.x = [[some 1, some 1], [some 2, some 2]] ∧ r.data.y = [[some 2, some 4], [some 2, some 4]] ∧
    r.data.z = [[some (22 / 50), some (36 / 50)], [some (7 / 50), some (9 / 50)]] ∧
    r.title = "detector/ mcu, Combined scans: 41 42 ".toList := by
  obtain ⟨f, s, hm, hc, h⟩ := slice1_loaded
  obtain ⟨f', t, hm', hc', h'⟩ := slice2_loaded
  obtain ⟨r, h1, h2, h3, _, h4, h5⟩ := C95_rows fmt
    [⟨s, f, 41, [⟨1, 2, 22, 50⟩, ⟨1, 4, 36, 50⟩]⟩, ⟨t, f', 42, [⟨2, 2, 7, 50⟩, ⟨2, 4, 9, 50⟩]⟩] (by simp)
    "qh".toList "en".toList "detector".toList "mcu".toList _ (some (1, "mcu".toList))
    (by
      intro g hg
      rcases List.mem_cons.1 hg with rfl | hg
      · refine ⟨⟨_, _, _, _, _, _, h⟩, ⟨_, _, energy_header hm⟩, ?_⟩
        have := slice_points2 (h := 1) (a := 22) (b := 36) hm (by simpa using hc)
        simpa [channel] using this
      · obtain rfl := List.mem_singleton.1 hg
        refine ⟨⟨_, _, _, _, _, _, h'⟩, ⟨_, _, energy_header hm'⟩, ?_⟩
        have := slice_points2 (h := 2) (a := 7) (b := 9) hm' (by simpa using hc')
        simpa [channel] using this)
    (by
      intro g hg x0 y0 hh
      have hmg : g.file.metadata = normalMeta := by
        rcases List.mem_cons.1 hg with rfl | hg
        · exact hm
        · obtain rfl := List.mem_singleton.1 hg; exact hm'
      obtain ⟨x', hx, rfl⟩ := hh.abscissa
      have := (header_of hmg (k := "def_x".toList) (v := "e".toList) (by decide)).symm.trans hx
      obtain rfl := Option.some.inj this
      exact .inr (by decide))
    2 (by
      intro g hg
      rcases List.mem_cons.1 hg with rfl | hg
      · rfl
      · obtain rfl := List.mem_singleton.1 hg; rfl)
    (by
      intro g hg q hq
      rcases List.mem_cons.1 hg with rfl | hg
      · simp only [List.mem_cons, List.not_mem_nil, or_false] at hq
        rcases hq with rfl | rfl <;> norm_num
      · obtain rfl := List.mem_singleton.1 hg
        simp only [List.mem_cons, List.not_mem_nil, or_false] at hq
        rcases hq with rfl | rfl <;> norm_num)
  refine ⟨s, t, r, h1, ?_, ?_, ?_, ?_⟩
  · rw [h2]; simp
  · rw [h3]; simp
  · rw [(h4 1 _ rfl).1]; simp [ratio]
  · rw [h5.title]
    have e : perText fmt "detector".toList 1 "mcu".toList = "detector/ mcu".toList := by simp [perText]
    refine (congrArg (fun a => a ++ ", ".toList ++ _) e).trans ?_
    have hd : decStr 41 = "41".toList := by decide +kernel
    have hd' : decStr 42 = "42".toList := by decide +kernel
    show "detector/ mcu".toList ++ ", ".toList ++ ("Combined scans: ".toList ++ (decStr 41 ++ " ".toList ++ (decStr 42 ++ " ".toList ++ []))) = _
    rw [hd, hd']
    decide +kernel

/-- The same map on a grid. -/
example (fmt : Val → Str) : ∃ (s t : ScanObj) (r : LabelledMap),
    combineMap fmt [s, t] "qh".toList "en".toList "detector".toList none (some (.pair (.num 1) (.num 2))) = .ok r ∧
    r.data.x = [[some 1, some 1], [some 2, some 2]] ∧ r.data.y = [[some 2, some 4], [some 2, some 4]] ∧ r.xlabel = "qh".toList := by
  obtain ⟨f, s, hm, hc, h⟩ := slice1_loaded
  obtain ⟨f', t, hm', hc', h'⟩ := slice2_loaded
  obtain ⟨r, h1, h2, h3, _, _, h5⟩ := C95_map fmt
    [⟨s, f, 41, [⟨1, 2, 22, 50⟩, ⟨1, 4, 36, 50⟩]⟩, ⟨t, f', 42, [⟨2, 2, 7, 50⟩, ⟨2, 4, 9, 50⟩]⟩] (by simp)
    "qh".toList "en".toList "detector".toList "mcu".toList _ none
    (by
      intro g hg
      rcases List.mem_cons.1 hg with rfl | hg
      · refine ⟨⟨_, _, _, _, _, _, h⟩, ⟨_, _, energy_header hm⟩, ?_⟩
        have := slice_points2 (h := 1) (a := 22) (b := 36) hm (by simpa using hc)
        simpa [channel] using this
      · obtain rfl := List.mem_singleton.1 hg
        refine ⟨⟨_, _, _, _, _, _, h'⟩, ⟨_, _, energy_header hm'⟩, ?_⟩
        have := slice_points2 (h := 2) (a := 7) (b := 9) hm' (by simpa using hc')
        simpa [channel] using this)
    (by
      intro g hg q hq
      rcases List.mem_cons.1 hg with rfl | hg
      · simp only [List.mem_cons, List.not_mem_nil, or_false] at hq
        rcases hq with rfl | rfl <;> norm_num
      · obtain rfl := List.mem_singleton.1 hg
        simp only [List.mem_cons, List.not_mem_nil, or_false] at hq
        rcases hq with rfl | rfl <;> norm_num)
    (.num 1) (.num 2) ⟨none, none, some 1⟩ ⟨none, none, some 2⟩ (by norm_num [formatRebin, checkRebin]) (by norm_num [formatRebin, checkRebin])
    ⟨1, 1, 2⟩ ⟨2, 2, 2⟩
    ⟨1 + 1, ⟨.inr ⟨rfl, by simp, by simp⟩, .inr ⟨rfl, by norm_num, by norm_num⟩, rfl, by norm_num, by norm_num⟩, two_steps _ _ (by norm_num)⟩
    ⟨2 + 2, ⟨.inr ⟨rfl, by simp, by norm_num⟩, .inr ⟨rfl, by norm_num, by norm_num⟩, rfl, by norm_num, by norm_num⟩, two_steps _ _ (by norm_num)⟩
  refine ⟨s, t, r, h1, ?_, ?_, h5.xlabel⟩
  · rw [h2]
    simp [table, List.range_succ]; norm_num
  · rw [h3]
    simp [table, List.range_succ]; norm_num

/-- The scan counted for longer is not combined with the first one, except after normalisation. -/
example (fmt : Val → Str) : ∃ s t : ScanObj, (∀ r, combineObjs fmt [s, t] "qh".toList "detector".toList none none none ≠ .ok r) ∧
    ∀ r, combineMap fmt [s, t] "qh".toList "en".toList "detector".toList none none ≠ .ok r := by
  obtain ⟨f, s, hm, hc, h⟩ := slice1_loaded
  obtain ⟨f', t, hm', hc', h'⟩ := slice3_loaded
  have hd' : NormalHeader f' "en".toList "detector".toList "mcu".toList (((dec false "60".toList "000000".toList).value : ℚ) : ℝ) :=
    { abscissa := ⟨"e".toList, header_of hm' (by decide), by decide⟩
      ordinate := header_of hm' (by decide)
      type := header_of hm' (by decide)
      channel := header_of hm' (by decide)
      named := by decide
      value := ⟨_, dec_valid (by decide), rfl, rfl, header_of hm' (by decide), rfl⟩ }
  have hne : (((dec false "50".toList "000000".toList).value : ℚ) : ℝ) ≠ (((dec false "60".toList "000000".toList).value : ℚ) : ℝ) := by
    intro e
    exact absurd (Rat.cast_injective e) (by decide +kernel)
  have hmix := C95_mixed fmt (fun _ => []) (fun _ => []) [(⟨s, f, 41, []⟩ : MemberOf Unit), ⟨t, f', 43, []⟩]
    (fun _ => "en".toList) (fun _ => "detector".toList) (fun _ => "mcu".toList)
    (fun g => if g.number = 41 then _ else _) (by
      intro g hg
      rcases List.mem_cons.1 hg with rfl | hg
      · exact ⟨⟨_, _, _, _, _, _, h⟩, energy_header hm⟩
      · obtain rfl := List.mem_singleton.1 hg
        exact ⟨⟨_, _, _, _, _, _, h'⟩, hd'⟩)
    ⟨s, f, 41, []⟩ ⟨t, f', 43, []⟩ (by simp) (by simp) (.inr hne) "qh".toList
  exact ⟨s, t, (hmix "detector".toList []).1 none none, (hmix "en".toList "detector".toList).2.1 none⟩

/-- Without axes, the common default axes are taken. -/
example (fmt : Val → Str) : ∃ s t : ScanObj, s ≠ t ∧ combineObjsDefault fmt [s, t] none none none =
    combineObjs fmt [s, t] "en".toList "detector".toList none none none := by
  obtain ⟨f, s, hm, hc, h⟩ := slice1_loaded
  obtain ⟨f', t, hm', hc', h'⟩ := slice2_loaded
  refine ⟨s, t, ?_, ?_⟩
  · rintro rfl
    have e1 := loaded_column h (slice_column hc (c := "h".toList) (nm := "qh".toList) (.renamed (by decide)) (qs := [some 1, some 1]) rfl (by decide))
    have e2 := loaded_column h' (slice_column hc' (c := "h".toList) (nm := "qh".toList) (.renamed (by decide)) (qs := [some 2, some 2]) rfl (by decide))
    have e := e1.symm.trans e2
    simp [shown] at e
  · exact (C95_default fmt [(⟨s, f, 41, []⟩ : MemberOf Unit), ⟨t, f', 42, []⟩] (by simp) (fun _ => "en".toList)
      (fun _ => "detector".toList) (fun _ => "mcu".toList) (fun _ => _) (by
        intro g hg
        rcases List.mem_cons.1 hg with rfl | hg
        · exact ⟨⟨_, _, _, _, _, _, h⟩, energy_header hm⟩
        · obtain rfl := List.mem_singleton.1 hg
          exact ⟨⟨_, _, _, _, _, _, h'⟩, energy_header hm'⟩) none none none).1 _ _ fun _ _ => ⟨rfl, rfl⟩

end Demo

end Tavi
