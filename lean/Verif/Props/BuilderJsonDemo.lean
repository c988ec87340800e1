import Verif.Props.BuilderJson
import Verif.Props.LoadDemo

/-!
# A scan read with configuration files (C104)
-/

namespace Tavi

open Spec

namespace JsonDemo

/-- The source. -/
def src : List (Str × JVal) := [("shape".toList, .str "rectangular".toList), ("width".toList, .num 7 "7".toList)]

/-- The monochromator: the data file says `PG002` and `+`. -/
def mono : List (Str × JVal) :=
  [("type".toList, .str "Si111".toList), ("sense".toList, .str "-".toList), ("mosaic_h".toList, .num 45 "45".toList),
   ("curved_h".toList, .bool true), ("curvh".toList, .null)]

/-- The collimators: horizontally all, vertically one is missing. -/
def coll : List (Str × JVal) :=
  [("h_pre_mono".toList, .num 40 "40".toList), ("h_pre_sample".toList, .num 41 "41".toList),
   ("h_post_sample".toList, .num 42 "42".toList), ("h_post_ana".toList, .num 80 "80".toList),
   ("v_pre_mono".toList, .num 600 "600".toList)]

/-- An instrument file. -/
def inst : List (Str × JSec) :=
  [("source".toList, .dict src), ("guide".toList, .null), ("monochromator".toList, .dict mono), ("collimators".toList, .dict coll)]

/-- A sample file. -/
noncomputable def samp : List (Str × JVal) :=
  [("type".toList, .str "powder".toList), ("a".toList, .num 5 "5".toList), ("shape".toList, .str []),
   ("ub_matrix".toList, .nums [1, 0, 0, 0, 1, 0, 0, 0, 1]), ("mosaic_h".toList, .num 30 "30".toList)]

theorem section_cases (name : Str) : sectionOf (some inst) name = src ∨ sectionOf (some inst) name = mono ∨
    sectionOf (some inst) name = coll ∨ sectionOf (some inst) name = [] := by
  unfold sectionOf
  simp only [Option.bind_some]
  cases h : lookupKey name inst with
  | none => exact .inr (.inr (.inr rfl))
  | some s =>
    have := lookupKey_some_mem h
    simp only [inst, List.mem_cons, Prod.mk.injEq, List.not_mem_nil, or_false] at this
    rcases this with ⟨_, rfl⟩ | ⟨_, rfl⟩ | ⟨_, rfl⟩ | ⟨_, rfl⟩
    · exact .inl rfl
    · exact .inr (.inr (.inr rfl))
    · exact .inr (.inl rfl)
    · exact .inr (.inr (.inl rfl))

theorem tidy : TidyConfig (some inst) (some samp) := by
  refine ⟨fun name => ?_, fun kv h => ?_, ?_⟩
  · rcases section_cases name with h | h | h | h <;> rw [h]
    · show ["shape".toList, "width".toList].Nodup; decide +kernel
    · show ["type".toList, "sense".toList, "mosaic_h".toList, "curved_h".toList, "curvh".toList].Nodup; decide +kernel
    · show ["h_pre_mono".toList, "h_pre_sample".toList, "h_post_sample".toList, "h_post_ana".toList, "v_pre_mono".toList].Nodup
      decide +kernel
    · exact List.nodup_nil
  · exact absurd h List.not_mem_nil
  · show ["type".toList, "a".toList, "shape".toList, "orientation_matrix".toList, "mosaic_h".toList].Nodup
    decide +kernel

theorem sec_source : sectionOf (some inst) "source".toList = src := rfl
theorem sec_mono : sectionOf (some inst) "monochromator".toList = mono := rfl
theorem sec_coll : sectionOf (some inst) "collimators".toList = coll := rfl

theorem storable : StorableConfig (some inst) (some samp) := by
  refine ⟨fun name h => ?_, fun x hx p v h => ?_, fun p v h => absurd h List.not_mem_nil, fun n hn v h => ?_, fun p v h => ?_⟩
  · have := lookupKey_some_mem (l := inst) (k := name) h
    simp [inst] at this
  · simp only [instrumentParts, List.mem_cons, List.not_mem_nil, or_false] at hx
    rcases hx with rfl | rfl | rfl | rfl | rfl
    · rw [sec_source] at h
      simp only [src, List.mem_cons, Prod.mk.injEq, List.not_mem_nil, or_false] at h
      rcases h with ⟨rfl, rfl⟩ | ⟨rfl, rfl⟩
      · exact .str _ (by decide +kernel)
      · exact .num _ _
    · rw [sec_mono] at h
      simp only [mono, List.mem_cons, Prod.mk.injEq, List.not_mem_nil, or_false] at h
      rcases h with ⟨rfl, rfl⟩ | ⟨rfl, rfl⟩ | ⟨rfl, rfl⟩ | ⟨rfl, rfl⟩ | ⟨rfl, rfl⟩
      · exact .str _ (by decide +kernel)
      · exact .str _ (by decide +kernel)
      · exact .num _ _
      · exact .bool _
      · exact .null
    · exact absurd h List.not_mem_nil
    · exact absurd h List.not_mem_nil
    · exact absurd h List.not_mem_nil
  · rw [sec_coll] at h
    have := lookupKey_some_mem h
    simp only [coll, List.mem_cons, Prod.mk.injEq, List.not_mem_nil, or_false] at this
    rcases this with ⟨_, rfl⟩ | ⟨_, rfl⟩ | ⟨_, rfl⟩ | ⟨_, rfl⟩ | ⟨_, rfl⟩ <;> exact ⟨_, _, rfl⟩
  · rw [Option.getD_some] at h
    simp only [samp, List.mem_cons, Prod.mk.injEq, List.not_mem_nil, or_false] at h
    rcases h with ⟨rfl, rfl⟩ | ⟨rfl, rfl⟩ | ⟨rfl, rfl⟩ | ⟨rfl, rfl⟩ | ⟨rfl, rfl⟩
    · rw [if_neg (by decide +kernel)]; exact .str _ (by decide +kernel)
    · rw [if_neg (by decide +kernel)]; exact .num _ _
    · rw [if_neg (by decide +kernel)]; exact .str _ (by decide +kernel)
    · rw [if_pos rfl]; exact ⟨_, rfl, rfl⟩
    · rw [if_neg (by decide +kernel)]; exact .num _ _

/-- The energy scan, read with both files. -/
theorem loaded : ∃ d, fileToNxWith Demo.plainDate (fun _ => none) (some (some inst)) (some (some samp)) Demo.loadDisk Demo.loadDir
    "HB1A_exp0266_scan0027.dat".toList = .ok d := by
  obtain ⟨f, _, _, _, d, hd⟩ := Demo.normal_loads
  exact C104_loads (inst := some inst) (samp := some samp) storable hd

/-- The type of the monochromator is that of the instrument file. -/
example : ∃ d i g ds, fileToNxWith Demo.plainDate (fun _ => none) (some (some inst)) (some (some samp)) Demo.loadDisk Demo.loadDir
    "HB1A_exp0266_scan0027.dat".toList = .ok d ∧ d.get? "instrument".toList = some (.dict i) ∧
    i.get? "monochromator".toList = some (.dict g) ∧ g.get? "type".toList = some (.dict ds) ∧
    ds.get? "dataset".toList = some (.leaf (.str "Si111".toList)) := by
  obtain ⟨d, hd⟩ := loaded
  obtain ⟨d0, hd0, hs⟩ := C104_file (inst := some inst) (samp := some samp) tidy hd
  obtain ⟨i0, i, _, hi, _, hparts, _⟩ := hs.instrument
  obtain ⟨g0, g, _, hg, hsup⟩ := hparts ("monochromator".toList, "monochromator".toList, monoMeaning)
    (by rw [instrumentParts]; exact List.mem_cons_of_mem _ (List.mem_cons_self ..))
  obtain ⟨ds, a, x, e1, e2, e3, _⟩ := hsup.found "type".toList (.str "Si111".toList) (List.mem_cons_self ..) trivial
    (by rintro (h | h) <;> simp at h)
  refine ⟨d, i, g, ds, hd, hi, hg, e1, ?_⟩
  rw [e2]
  cases e3 with
  | text h => rfl
  | spelled h _ _ => exact absurd h (by decide +kernel)
  | spelledMany h _ _ => exact absurd h (by decide +kernel)

end JsonDemo

end Tavi
