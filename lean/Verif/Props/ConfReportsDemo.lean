import Verif.Props.ConfReports
import Verif.Props.ConfDataDemo
import Verif.Props.MeasurementDemo
import Verif.Props.TaviFile

/-!
# The instrument of a scan read with configuration files (case for C108)
-/

namespace Tavi

open Spec

namespace JsonDemo

/-- The sample table: the data file says `-`. -/
def table : List (Str × JVal) := [("type".toList, .str "Y,-Z,X".toList), ("sense".toList, .str "+".toList)]

/-- An instrument file that speaks about the sample table. -/
def tabled : List (Str × JSec) := inst ++ [("goniometer".toList, .dict table)]

theorem tabled_section (name : Str) : sectionOf (some tabled) name = sectionOf (some inst) name ∨
    name = "goniometer".toList ∧ sectionOf (some tabled) name = table := by
  by_cases h : name = "goniometer".toList
  · subst h; exact .inr ⟨rfl, rfl⟩
  · left
    unfold sectionOf
    have : lookupKey name tabled = lookupKey name inst := by
      rw [tabled, lookupKey_append, lookupKey, if_neg (Ne.symm h), lookupKey, Option.or_none]
    simp only [Option.bind_some, this]

theorem tabled_tidy (c : Str) : TidyConfig (some tabled) (some (turned c)) := by
  refine ⟨fun name => ?_, tidy.detector, (turned_tidy c).sample⟩
  rcases tabled_section name with h | ⟨_, h⟩ <;> rw [h]
  · exact tidy.sections name
  · show ["type".toList, "sense".toList].Nodup; decide +kernel

theorem tabled_storable (c : Str) : StorableConfig (some tabled) (some (turned c)) := by
  refine ⟨fun name h => ?_, fun x hx p v h => ?_, storable.monitor, storable.collimators, (turned_storable c).sample⟩
  · have := lookupKey_some_mem (l := tabled) (k := name) h
    simp [tabled, inst] at this
  · rcases tabled_section x.2.1 with e | ⟨e1, e⟩
    · rw [e] at h; exact storable.parts x hx p v h
    · rw [e] at h
      simp only [instrumentParts, List.mem_cons, List.not_mem_nil, or_false] at hx
      rcases hx with rfl | rfl | rfl | rfl | rfl
      · exact absurd e1 (by decide)
      · exact absurd e1 (by decide)
      · exact absurd e1 (by decide)
      · exact absurd e1 (by decide)
      · simp only [table, List.mem_cons, Prod.mk.injEq, List.not_mem_nil, or_false] at h
        rcases h with ⟨rfl, rfl⟩ | ⟨rfl, rfl⟩
        · exact .str _ (by decide +kernel)
        · exact .str _ (by decide +kernel)

theorem tabled_spoken {c k : Str} (h : ConfSays (some tabled) (some (turned c)) k) : k ∈ spoken := by
  rcases h with ⟨x, hx, p, v, hm, ht, hk, hv⟩ | h
  · rcases tabled_section x.2.1 with e | ⟨e1, e⟩
    · rw [e] at hm; exact spoken_of (c := c) (.inl ⟨x, hx, p, v, hm, ht, hk, hv⟩)
    · simp only [instrumentParts, List.mem_cons, List.not_mem_nil, or_false] at hx
      rcases hx with rfl | rfl | rfl | rfl | rfl
      · exact absurd e1 (by decide)
      · exact absurd e1 (by decide)
      · exact absurd e1 (by decide)
      · exact absurd e1 (by decide)
      · obtain rfl : "type".toList = k := (ht : p = "type".toList).symm.trans hk
        decide +kernel
  · exact spoken_of (c := c) (.inr h)

theorem tabled_plain (c : Str) : PlainNames (some tabled) (some (turned c)) := by
  refine ⟨fun k h => ?_, fun h => absurd (tabled_spoken h) (by decide +kernel), fun h => absurd (tabled_spoken h) (by decide +kernel)⟩
  exact (show ∀ k ∈ spoken, k ∉ ["attrs", "dataset", "detector", "monitor", "sample"].map String.toList ∧ '/' ∉ k by decide +kernel)
    k (tabled_spoken h)

theorem tabled_own (c : Str) : OwnNames (some tabled) (some (turned c)) := by
  refine ⟨fun k hk h => ?_, fun x hx h => ?_, fun h => ?_⟩
  · exact (show ∀ k ∈ ["monochromator".toList, "analyser".toList, "goniometer".toList], k ∉ spoken by decide +kernel) k hk
      (tabled_spoken h)
  · obtain ⟨p, v, hm, ht, hk, _⟩ := h
    have hname : x.2.2.name = id := by
      simp only [instrumentParts, List.mem_cons, List.not_mem_nil, or_false] at hx
      rcases hx with rfl | rfl | rfl | rfl | rfl <;> rfl
    rw [hname] at hk
    obtain rfl : p = "divergence_x".toList := hk
    have hin : "divergence_x".toList ∈ (sectionOf (some tabled) x.2.1).map Prod.fst := List.mem_map_of_mem (f := Prod.fst) hm
    rcases tabled_section x.2.1 with e | ⟨_, e⟩
    · rw [e] at hin
      rcases section_cases x.2.1 with e' | e' | e' | e' <;> rw [e'] at hin
      · exact (show "divergence_x".toList ∉ src.map Prod.fst by decide +kernel) hin
      · exact (show "divergence_x".toList ∉ ["type".toList, "sense".toList, "mosaic_h".toList, "curved_h".toList, "curvh".toList] by
          decide +kernel) hin
      · exact (show "divergence_x".toList ∉ ["h_pre_mono".toList, "h_pre_sample".toList, "h_post_sample".toList, "h_post_ana".toList,
          "v_pre_mono".toList] by decide +kernel) hin
      · exact absurd hin List.not_mem_nil
    · rw [e] at hin
      exact (show "divergence_x".toList ∉ ["type".toList, "sense".toList] by decide +kernel) hin
  · obtain ⟨p, v, hm, _, hk, _⟩ := h
    have : p ∈ (turned c).map Prod.fst := List.mem_map_of_mem (f := Prod.fst) hm
    exact (show ∀ p ∈ ["type".toList, "a".toList, "b".toList, "c".toList, "alpha".toList, "beta".toList, "gamma".toList,
      "ub_matrix".toList, "plane_normal".toList, "mosaic_h".toList, "convention".toList],
      sampleMeaning.name p ≠ "divergence_x".toList by decide +kernel) p this hk

/-- Crystal and sense of the monochromator and the collimation are those of the file; analyser and sample table are those of the
header, though the file gives another sense for the table. -/
example : ∃ (s : ScanObj) (i : InstrumentInfo), instrumentInfo s = .ok i ∧ i.mono = some (.leaf (.str "Si111".toList)) ∧
    i.ana = some (.leaf (.str "Pg002".toList)) ∧ i.sense = "--+".toList ∧ i.sense ≠ "-++".toList ∧
    i.collimation = some (.leaf (.fin [40, 41, 42, 80])) := by
  obtain ⟨f, s0, hm, hf, d, hd, hs⟩ := Demo.cube_loaded
  obtain ⟨s, h⟩ := C106_loads (tabled_storable "Spice".toList) (tabled_tidy _) (tabled_plain _)
    (show LoadedWith Demo.plainDate (fun _ => none) none none ["divergence_x".toList] Demo.cubeDisk Demo.loadDir
      "HB1A_exp0266_scan0036.dat".toList f [] (scanName 36) s0 from ⟨hf, d, (file_without _ _).trans hd, hs⟩)
  have hmono : WordFrom (sectionOf (some tabled) "monochromator".toList) "type".toList
      (shownText (header f "monochromator".toList)) (some (.leaf (.str "Si111".toList))) :=
    .said (by decide) (show _ ∈ mono from List.mem_cons_self)
  have hana : WordFrom (sectionOf (some tabled) "analyzer".toList) "type".toList
      (shownText (header f "analyzer".toList)) (some (.leaf (.str "Pg002".toList))) := by
    rw [Demo.header_of hm (k := "analyzer".toList) (v := "Pg002".toList) (by decide)]
    exact .header fun v hv => absurd hv List.not_mem_nil
  have h0 : WordFrom (sectionOf (some tabled) "monochromator".toList) "sense".toList
      ("+-+".toList[0]?.map fun x => .leaf (.str [x])) (some (.leaf (.str "-".toList))) :=
    .said (by decide) (show _ ∈ mono from List.mem_cons_of_mem _ List.mem_cons_self)
  have h2 : WordFrom (sectionOf (some tabled) "analyzer".toList) "sense".toList
      ("+-+".toList[2]?.map fun x => .leaf (.str [x])) (some (.leaf (.str "+".toList))) :=
    .header fun v hv => absurd hv List.not_mem_nil
  have hcol : HeaderCollimation f (Demo.collNumerals.map fun n => (n.value : ℝ)) :=
    ⟨_, Demo.collNumerals.map Numeral.text, by decide, Demo.coll_valid, Demo.trims (by decide +kernel),
      Demo.header_of hm (by decide), rfl⟩
  have hc : CollimationFrom (sectionOf (some tabled) "collimators".toList) (Demo.collNumerals.map fun n => (n.value : ℝ))
      [40, 41, 42, 80] :=
    .said [(40, "40".toList), (41, "41".toList), (42, "42".toList), (80, "80".toList)] rfl
  have hsense : header f "sense".toList = some "+-+".toList := Demo.header_of hm (by decide)
  obtain ⟨i, t1, e1, hi, k1, k2, k3, k4⟩ := C108_instrument (tabled_tidy _) (tabled_plain _) (tabled_own _) h hsense hmono hana h0 h2 hcol hc
  obtain rfl : '-' = t1 := Option.some.inj e1
  exact ⟨s, i, hi, k1, k2, k3, C108_table_ignored (tabled_tidy _) (tabled_plain _) (tabled_own _) h hsense hmono hana h0 h2 hcol hc
    (x := '+') (show _ ∈ table from List.mem_cons_of_mem _ List.mem_cons_self) (by decide) hi, k4⟩

end JsonDemo

end Tavi
