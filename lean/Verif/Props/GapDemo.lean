import Verif.Props.ScanMapDemo

/-!
# A scan with an undefined number (cases for C75 and C94)
-/

namespace Tavi

open Spec

namespace Demo

/-- The energy of the first point was not recorded. -/
def gapLines : List Str :=
  headerLines ++ ["# preset_type = normal\n", "# preset_channel = mcu\n", "# preset_value = 50.000000\n", "# col_headers =\n",
    "#   Pt.  h  k  l  e  detector  monitor  mcu\n", "   1  1  1  0  nan  22  210000  50\n", "   2  1  1  0  4  36  210000  50\n"].map String.toList

def gapCols : List (Str × List (Option ℚ)) :=
  [("Pt.".toList, [some 1, some 2]), ("h".toList, [some 1, some 1]), ("k".toList, [some 1, some 1]), ("l".toList, [some 0, some 0]),
   ("e".toList, [none, some 4]), ("detector".toList, [some 22, some 36]), ("monitor".toList, [some 210000, some 210000]),
   ("mcu".toList, [some 50, some 50])]

def gapDisk : FS := fun p =>
  if p = ["exp".toList] ∨ p = ["exp".toList, "Datafiles".toList] then some .folder
  else if p = ["exp".toList, "Datafiles".toList, "HB1A_exp0266_scan0044.dat".toList] then some (.file gapLines)
  else none

theorem gap_no_ub (p : List Str) : gapDisk ("exp".toList :: "UBConf".toList :: p) = none := by
  unfold gapDisk
  have h1 : ∀ q : List Str, ("exp".toList :: "UBConf".toList :: p : List Str) ≠ "exp".toList :: "Datafiles".toList :: q := by
    intro q h
    have := (List.cons.inj (List.cons.inj h).2).1
    exact absurd this (by decide)
  rw [if_neg, if_neg (h1 _)]
  rintro (h | h)
  · exact absurd (List.cons.inj h).2 (by simp)
  · exact h1 [] h

theorem gap_loaded : ∃ (f : SpiceFile) (s : ScanObj), f.metadata = normalMeta ∧ columns f = gapCols ∧
    Loaded plainDate (fun _ => none) gapDisk loadDir "HB1A_exp0266_scan0044.dat".toList f [] (scanName 44) s := by
  obtain ⟨f, hf, hc, hm, d, hd⟩ := loads (disk := gapDisk) (name := "HB1A_exp0266_scan0044.dat".toList) (lines := gapLines)
    (cols := gapCols) (md := normalMeta)
    (by rw [gapDisk, if_neg (by decide +kernel), if_pos (by decide +kernel)]) (by decide +kernel) gap_no_ub
    (by decide +kernel) (by decide +kernel)
  obtain ⟨s, hs⟩ := bare_scan hf (by rw [hm]; decide) hd (by rw [hc]; decide +kernel) (by decide) (scanName 44)
  exact ⟨f, _, hm, hc, loaded_of hf hd hs []⟩

/-- The point is shown, with its counts, at an undefined energy. -/
example (fmt : Val → Str) : ∃ (s : ScanObj) (r : LabelledData), s.getData fmt none none none none none = .ok r ∧
    r.data.x = [none, some 4] ∧ r.data.y = [some 22, some 36] ∧ r.data.err = [some √22, some √36] := by
  obtain ⟨f, s, hm, hc, h⟩ := gap_loaded
  have hn : Detectors ((columns f).map Prod.fst) 0 := by
    rw [hc]
    exact ⟨fun i h1 h2 => absurd (h1.trans h2) (by decide), by decide +kernel⟩
  have h7 : toZero 22 = 22 := by decide +kernel
  have h6 : toZero 36 = 36 := by decide +kernel
  obtain ⟨r, hr, a, b, c, -⟩ := C94_shown plainDate _ gapDisk loadDir _ f _ 44 s h _ _ _ _ (energy_header hm) fmt none none
    [none, some 4] [some 22, some 36]
    ⟨0, "e".toList, false, [none, some 4], hn, .renamed (by decide), by rw [hc]; decide +kernel, fun i hi => by
      have := congrArg (fun l : Str => '_' ∈ l) hi
      simp [withNumber] at this, by simp [shown]⟩
    ⟨0, "detector".toList, true, [some 22, some 36], hn, .detector, by rw [hc]; decide +kernel, fun i hi => by
      have := congrArg (fun l : Str => '_' ∈ l) hi
      simp [withNumber] at this, by simp [shown, h7, h6]⟩ (by decide)
  refine ⟨s, r, hr, a, b, c.trans ?_⟩
  simp [show ¬ (22 : ℝ) < 0 by norm_num, show ¬ (36 : ℝ) < 0 by norm_num]

end Demo

end Tavi
