import Verif.Props.ConfConvert
import Verif.Props.ConfDataDemo
import Verif.Props.ConvertDemo

/-!
# Converting with configuration files (cases for C107)
-/

namespace Tavi

open Matrix Spec

namespace JsonDemo

theorem turned_writable (c : Str) : WritableConfig (some inst) (some (turned c)) := by
  refine ⟨fun x hx p v h => ?_, fun p v h => absurd h List.not_mem_nil, fun p v h => ?_⟩
  · simp only [instrumentParts, List.mem_cons, List.not_mem_nil, or_false] at hx
    rcases hx with rfl | rfl | rfl | rfl | rfl
    · rw [sec_source] at h
      simp only [src, List.mem_cons, Prod.mk.injEq, List.not_mem_nil, or_false] at h
      rcases h with ⟨rfl, rfl⟩ | ⟨rfl, rfl⟩ <;> exact ⟨fun _ e => (nomatch e), fun _ _ e => (nomatch e)⟩
    · rw [sec_mono] at h
      simp only [mono, List.mem_cons, Prod.mk.injEq, List.not_mem_nil, or_false] at h
      rcases h with ⟨rfl, rfl⟩ | ⟨rfl, rfl⟩ | ⟨rfl, rfl⟩ | ⟨rfl, rfl⟩ | ⟨rfl, rfl⟩ <;>
        exact ⟨fun _ e => (nomatch e), fun _ _ e => (nomatch e)⟩
    all_goals exact absurd h List.not_mem_nil
  · rw [Option.getD_some] at h
    simp only [turned, List.mem_cons, Prod.mk.injEq, List.not_mem_nil, or_false] at h
    rcases h with ⟨rfl, rfl⟩ | ⟨rfl, rfl⟩ | ⟨rfl, rfl⟩ | ⟨rfl, rfl⟩ | ⟨rfl, rfl⟩ | ⟨rfl, rfl⟩ | ⟨rfl, rfl⟩ | ⟨rfl, rfl⟩ | ⟨rfl, rfl⟩ |
      ⟨rfl, rfl⟩ | ⟨rfl, rfl⟩
    all_goals first
      | exact ⟨fun _ e => (nomatch e), fun hk => absurd hk (by decide +kernel)⟩
      | exact ⟨fun _ e => (nomatch e), fun _ _ e => (nomatch e)⟩

/-- The energy scan with four points, read with the files. -/
theorem four_with (c ds : Str) : ∃ (f : SpiceFile) (s : ScanObj), f.metadata = Demo.normalMeta ∧ Plottable f ∧
    AxesKept (some inst) (some (turned c)) f ∧
    LoadedWith Demo.plainDate (fun _ => none) (some inst) (some (turned c)) ["divergence_x".toList] Demo.fourDisk Demo.loadDir
      "HB1A_exp0266_scan0034.dat".toList f ds (scanName 34) s := by
  obtain ⟨f, s0, hm, hc, h⟩ := Demo.four_loaded
  obtain ⟨hf, d, hd, hs⟩ := h
  obtain ⟨s1, h1⟩ := Demo.bare_scan hf (by rw [hm]; decide) hd (by rw [hc]; decide +kernel) (by decide) (scanName 34)
  obtain ⟨_, d', hd', hs'⟩ := Demo.loaded_of hf hd h1 ds
  obtain ⟨s, hl⟩ := C106_loads (turned_storable c) (turned_tidy c) (turned_plain c)
    (show LoadedWith Demo.plainDate (fun _ => none) none none ["divergence_x".toList] Demo.fourDisk Demo.loadDir
      "HB1A_exp0266_scan0034.dat".toList f ds (scanName 34) _ from ⟨hf, d', (file_without _ _).trans hd', hs'⟩)
  have hx : header f "def_x".toList = some "e".toList := Demo.header_of hm (by decide)
  have hy : header f "def_y".toList = some "detector".toList := Demo.header_of hm (by decide)
  refine ⟨f, s, hm, ⟨Demo.four_plain hc, _, _, hx, hy, by decide, Demo.four_abscissa f, Demo.four_ordinate f⟩, ?_, hl⟩
  intro x y hx' hy'
  obtain rfl := Option.some.inj (hx'.symm.trans hx)
  obtain rfl := Option.some.inj (hy'.symm.trans hy)
  exact ⟨fun h => absurd (spoken_of h) (by decide +kernel), fun h => absurd (spoken_of h) (by decide +kernel)⟩

/-- The folder `exp` converted with the files: the file for the scan has its energies and the parameters the files give. -/
example : ∃ (disk' : Disk) (g : NxFile) (s s' : ScanObj),
    convertSpiceWith Demo.plainDate (fun _ => none) (some (some inst)) (some (some (turned "Spice".toList))) [] Demo.convertDisk
      Demo.fourListing "exp".toList (some "out/".toList) = .ok disk' ∧
    disk'.nexus ["out".toList, "scan0034.h5".toList] = some g ∧ scanFromNexus g none = .ok s' ∧
    lookupKey "en".toList s'.data = lookupKey "en".toList s.data ∧
    s'.get "sample/orientation_matrix".toList = s.get "sample/orientation_matrix".toList ∧
    s'.get "monochromator/type".toList = s.get "monochromator/type".toList := by
  obtain ⟨f, s, hm, hp, hk, hl⟩ := four_with "Spice".toList "IPTSIPTS-890_HB1A_exp0266".toList
  have hds : datasetOf f "HB1A".toList "exp0266".toList = "IPTSIPTS-890_HB1A_exp0266".toList := by
    rw [datasetOf, Demo.header_of hm (k := "proposal".toList) (v := "IPTS-890".toList) (by decide)]; decide
  rw [← hds] at hl
  have huniq : ∀ {file i x n : Str}, file ∈ Demo.fourListing → ScanFile file i x n → n = scanName 34 := fun hf hs => by
    rw [Demo.mem_four hf] at hs
    exact (hs.unique Demo.scanFile34).2.2
  have hr : resolve [] "exp".toList = ["exp".toList] := by decide
  obtain ⟨disk', h1, h2⟩ := C107_scans Demo.plainDate (fun _ => none) (some inst) (some (turned "Spice".toList)) (turned_writable _)
    (turned_tidy _) (turned_plain _) [] Demo.convertDisk Demo.fourListing "exp".toList (some "out/".toList) Demo.four_conventional
    (fun file hf => by rw [Demo.mem_four hf]; decide) (by rw [hr]; exact Demo.four_data)
    (fun a ha b hb _ _ _ _ _ _ _ => by rw [Demo.mem_four ha, Demo.mem_four hb])
    _ _ _ _ f (by decide) Demo.scanFile34 (fun file hf _ => by rw [Demo.mem_four hf]) (by rw [hr]; exact hl.1) ["out".toList]
    (Output.given "out".toList) (by
      intro q l hq
      rcases List.prefix_cons_iff.1 hq with rfl | ⟨q', rfl, hq'⟩
      · show Demo.fourDisk [] ≠ some (.file l)
        rw [Demo.fourDisk, if_neg (by decide), if_neg (by decide)]; simp
      · rw [List.prefix_nil.1 hq']
        show Demo.fourDisk ["out".toList] ≠ some (.file l)
        rw [Demo.fourDisk, if_neg (by decide), if_neg (by decide)]; simp)
    (fun file hf j y n hs => by rw [huniq hf hs]; exact ⟨by decide, rfl⟩)
    (fun file hfl j y n hs => by
      rw [huniq hfl hs, Demo.mem_four hfl, hr]
      exact ⟨f, s, hp, hk, hl⟩)
  obtain ⟨g, s', h3, h4, _, h5, h6, _⟩ := h2 _ (by decide) _ _ _ Demo.scanFile34 f _ (by rw [hr]; exact hl)
  rw [Demo.name34] at h3
  exact ⟨disk', g, s, s', h1, h3, h4, h5 _ (by decide), h6 _ (by unfold PlainKey; decide +kernel), h6 _ (by unfold PlainKey; decide +kernel)⟩

/-- A sample file with a list of texts. -/
def listed : List (Str × JVal) := [("notes".toList, .strs ["cut".toList, "polished".toList])]

theorem listed_storable : StorableConfig (some inst) (some listed) := by
  refine ⟨storable.sections, storable.parts, storable.monitor, storable.collimators, fun p v h => ?_⟩
  rw [Option.getD_some] at h
  obtain ⟨rfl, rfl⟩ := Prod.mk.inj (List.mem_singleton.1 h)
  rw [if_neg (by decide +kernel)]
  exact .strs _ (by decide +kernel)

/-- It is read, but the entry cannot be written. -/
example : ∃ d, fileToNxWith Demo.plainDate (fun _ => none) (some (some inst)) (some (some listed)) Demo.fourDisk Demo.loadDir
      "HB1A_exp0266_scan0034.dat".toList = .ok d ∧ ∀ ds F', toNexusFile (setDatasetName d ds) (scanName 34) .new ≠ .ok F' := by
  obtain ⟨f, s0, hm, hc, _, d0, hd0, _⟩ := Demo.four_loaded
  obtain ⟨d, hd⟩ := C104_loads listed_storable hd0
  have ht : TidyConfig (some inst) (some listed) := by
    refine ⟨tidy.sections, tidy.detector, ?_⟩
    show ["notes".toList].Nodup
    decide +kernel
  have hs : ∀ k, ConfSays (some inst) (some listed) k → k ∈ "notes".toList :: spoken := by
    rintro k (h | h | h | h | ⟨p, v, hm, _, rfl, _⟩)
    · exact List.mem_cons_of_mem _ (spoken_of (c := []) (.inl h))
    · exact List.mem_cons_of_mem _ (spoken_of (c := []) (.inr (.inl h)))
    · exact List.mem_cons_of_mem _ (spoken_of (c := []) (.inr (.inr (.inl h))))
    · exact List.mem_cons_of_mem _ (spoken_of (c := []) (.inr (.inr (.inr (.inl h)))))
    · obtain ⟨rfl, rfl⟩ := Prod.mk.inj (List.mem_singleton.1 hm)
      decide +kernel
  have hn : PlainNames (some inst) (some listed) := by
    refine ⟨fun k h => ?_, fun h => absurd (hs _ h) (by decide +kernel), fun h => absurd (hs _ h) (by decide +kernel)⟩
    exact (show ∀ k ∈ "notes".toList :: spoken, k ∉ ["attrs", "dataset", "detector", "monitor", "sample"].map String.toList ∧ '/' ∉ k by
      decide +kernel) k (hs k h)
  refine ⟨d, hd, fun ds F' => C107_refused ht hn hd (k := "notes".toList) (List.mem_singleton.2 rfl)
    (show "notes".toList ∉ cellNames by decide +kernel) (.inl ⟨_, rfl, by decide +kernel, by decide +kernel⟩) _ _⟩

end JsonDemo

end Tavi
