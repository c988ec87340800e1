import Verif.Props.ConfData
import Verif.Props.BuilderJsonDemo
import Verif.Props.SampleScanDemo

/-!
# A scan read with a sample file (cases for C105 and C106)
-/

namespace Tavi

open Matrix Spec

namespace JsonDemo

/-- A sample file: another cell than in the header, a turned crystal. -/
noncomputable def turned (convention : Str) : List (Str × JVal) :=
  [("type".toList, .str "crystal".toList), ("a".toList, .num 1 "1".toList), ("b".toList, .num 1 "1".toList),
   ("c".toList, .num 1 "1".toList), ("alpha".toList, .num 90 "90".toList), ("beta".toList, .num 90 "90".toList),
   ("gamma".toList, .num 90 "90".toList), ("ub_matrix".toList, .nums [0, -1, 0, 1, 0, 0, 0, 0, 1]),
   ("plane_normal".toList, .nums [0, 0, 1]), ("mosaic_h".toList, .num 45 "45".toList), ("convention".toList, .str convention)]

theorem turned_tidy (c : Str) : TidyConfig (some inst) (some (turned c)) := by
  refine ⟨tidy.sections, tidy.detector, ?_⟩
  show ["type".toList, "a".toList, "b".toList, "c".toList, "alpha".toList, "beta".toList, "gamma".toList, "orientation_matrix".toList,
    "plane_normal".toList, "mosaic_h".toList, "convention".toList].Nodup
  decide +kernel

theorem turned_storable (c : Str) : StorableConfig (some inst) (some (turned c)) := by
  refine ⟨storable.sections, storable.parts, storable.monitor, storable.collimators, fun p v h => ?_⟩
  rw [Option.getD_some] at h
  simp only [turned, List.mem_cons, Prod.mk.injEq, List.not_mem_nil, or_false] at h
  rcases h with ⟨rfl, rfl⟩ | ⟨rfl, rfl⟩ | ⟨rfl, rfl⟩ | ⟨rfl, rfl⟩ | ⟨rfl, rfl⟩ | ⟨rfl, rfl⟩ | ⟨rfl, rfl⟩ | ⟨rfl, rfl⟩ | ⟨rfl, rfl⟩ |
    ⟨rfl, rfl⟩ | ⟨rfl, rfl⟩
  · rw [if_neg (by decide +kernel)]; exact .str _ (by decide +kernel)
  · rw [if_neg (by decide +kernel)]; exact .num _ _
  · rw [if_neg (by decide +kernel)]; exact .num _ _
  · rw [if_neg (by decide +kernel)]; exact .num _ _
  · rw [if_neg (by decide +kernel)]; exact .num _ _
  · rw [if_neg (by decide +kernel)]; exact .num _ _
  · rw [if_neg (by decide +kernel)]; exact .num _ _
  · rw [if_pos rfl]; exact ⟨_, rfl, rfl⟩
  · rw [if_neg (by decide +kernel)]; exact .nums _
  · rw [if_neg (by decide +kernel)]; exact .num _ _
  · rw [if_neg (by decide +kernel)]; exact .str _ (by decide +kernel)

/-- The names the files speak about. -/
def spoken : List Str :=
  ["shape".toList, "width".toList, "type".toList, "sense".toList, "mosaic_h".toList, "curved_h".toList, "curvh".toList,
   "divergence_x".toList, "divergence_y".toList, "type".toList, "orientation_matrix".toList, "plane_normal".toList,
   "mosaic_h".toList, "convention".toList]

theorem spoken_of {c k : Str} (h : ConfSays (some inst) (some (turned c)) k) : k ∈ spoken := by
  rcases h with ⟨x, hx, p, v, hm, _, rfl, _⟩ | rfl | rfl | ⟨p, v, hm, _⟩ | ⟨p, v, hm, ht, rfl, _⟩
  · simp only [instrumentParts, List.mem_cons, List.not_mem_nil, or_false] at hx
    rcases hx with rfl | rfl | rfl | rfl | rfl
    · rw [sec_source] at hm
      have : p ∈ src.map Prod.fst := List.mem_map_of_mem (f := Prod.fst) hm
      exact (show ∀ p ∈ ["shape".toList, "width".toList], p ∈ spoken by decide +kernel) p this
    · rw [sec_mono] at hm
      have : p ∈ mono.map Prod.fst := List.mem_map_of_mem (f := Prod.fst) hm
      exact (show ∀ p ∈ ["type".toList, "sense".toList, "mosaic_h".toList, "curved_h".toList, "curvh".toList], p ∈ spoken by
        decide +kernel) p this
    all_goals exact absurd hm List.not_mem_nil
  · decide +kernel
  · decide +kernel
  · exact absurd hm List.not_mem_nil
  · have : p ∈ (turned c).map Prod.fst := List.mem_map_of_mem (f := Prod.fst) hm
    have ht' : p ∉ cellNames := ht
    exact (show ∀ p ∈ ["type".toList, "a".toList, "b".toList, "c".toList, "alpha".toList, "beta".toList, "gamma".toList,
      "ub_matrix".toList, "plane_normal".toList, "mosaic_h".toList, "convention".toList],
      p ∉ cellNames → sampleMeaning.name p ∈ spoken by decide +kernel) p this ht'

theorem turned_plain (c : Str) : PlainNames (some inst) (some (turned c)) := by
  refine ⟨fun k h => ?_, fun h => absurd (spoken_of h) (by decide +kernel), fun h => absurd (spoken_of h) (by decide +kernel)⟩
  exact (show ∀ k ∈ spoken, k ∉ ["attrs", "dataset", "detector", "monitor", "sample"].map String.toList ∧ '/' ∉ k by decide +kernel)
    k (spoken_of h)

/-- The scan with the turned crystal. -/
abbrev Turned (c : Str) (f : SpiceFile) (s : ScanObj) : Prop :=
  LoadedWith Demo.plainDate (fun _ => none) (some inst) (some (turned c)) ["divergence_x".toList] Demo.cubeDisk Demo.loadDir
    "HB1A_exp0266_scan0036.dat".toList f [] (scanName 36) s

theorem turned_loaded (c : Str) : ∃ (f : SpiceFile) (s0 s : ScanObj), f.metadata = Demo.cubeMeta ∧
    LoadedWith Demo.plainDate (fun _ => none) none none ["divergence_x".toList] Demo.cubeDisk Demo.loadDir
      "HB1A_exp0266_scan0036.dat".toList f [] (scanName 36) s0 ∧ Turned c f s := by
  obtain ⟨f, s0, hm, h⟩ := Demo.cube_loaded
  have h0 : LoadedWith Demo.plainDate (fun _ => none) none none ["divergence_x".toList] Demo.cubeDisk Demo.loadDir
      "HB1A_exp0266_scan0036.dat".toList f [] (scanName 36) s0 := by
    obtain ⟨hf, d, hd, hs⟩ := h
    exact ⟨hf, d, (file_without _ _).trans hd, hs⟩
  obtain ⟨s, hs⟩ := C106_loads (turned_storable c) (turned_tidy c) (turned_plain c) h0
  exact ⟨f, s0, s, hm, h0, hs⟩

/-- The measured energy is the one of the scan read without the files. -/
example : ∃ f s0 s, LoadedWith Demo.plainDate (fun _ => none) none none ["divergence_x".toList] Demo.cubeDisk Demo.loadDir
      "HB1A_exp0266_scan0036.dat".toList f [] (scanName 36) s0 ∧ Turned "Spice".toList f s ∧
    lookupKey "en".toList s.data = lookupKey "en".toList s0.data ∧ lookupKey "detector".toList s.data = lookupKey "detector".toList s0.data := by
  obtain ⟨f, s0, s, _, h0, h⟩ := turned_loaded "Spice".toList
  exact ⟨f, s0, s, h0, h, C106_columns (turned_tidy _) (turned_plain _) h0 h fun hk => absurd (spoken_of hk) (by decide +kernel),
    C106_columns (turned_tidy _) (turned_plain _) h0 h fun hk => absurd (spoken_of hk) (by decide +kernel)⟩

theorem turned_describes (c : Str) {f : SpiceFile} (hm : f.metadata = Demo.cubeMeta) :
    DescribesSampleWith (turned c) f Demo.cube (some (.leaf (.num ((Demo.dec false "30".toList "000000".toList).value : ℝ))))
      [0, -1, 0, 1, 0, 0, 0, 0, 1] ![0, 0, 1] where
  cell := (Demo.cube_describes hm).cell
  possible := (Demo.cube_describes hm).possible
  mosaic := (Demo.cube_describes hm).mosaic
  normal := .inl (by simp [turned])
  matrix := .inl (by simp [turned])
  nine := rfl
  invertible := by simp [rows, Matrix.det_fin_three]
  names := by
    intro k hk v hv
    have : k ∈ (turned c).map Prod.fst := List.mem_map_of_mem (f := Prod.fst) hv
    exact (show ∀ k ∈ ["type".toList, "a".toList, "b".toList, "c".toList, "alpha".toList, "beta".toList, "gamma".toList,
      "ub_matrix".toList, "plane_normal".toList, "mosaic_h".toList, "convention".toList],
      k ∉ ["unit_cell".toList, "mosaic".toList, "orientation_matrix".toList] by decide +kernel) k this hk

/-- The sample of the scan has the matrix of the sample file; its mosaic is the one of the header. -/
example : ∃ s r c, sampleFromScan s = .ok r ∧ r.latt = Demo.cube ∧ r.ubConf = some c ∧
    c.getUbMat = .ok (rows [0, -1, 0, 1, 0, 0, 0, 0, 1]) ∧
    r.mosaicH = cfgOf (some (.leaf (.num ((Demo.dec false "30".toList "000000".toList).value : ℝ)))) := by
  obtain ⟨f, _, s, hm, _, h⟩ := turned_loaded "Spice".toList
  obtain ⟨r, c, h1, h2, h3, _, h4, _, h5, _⟩ := C105_sample (turned_tidy _) h (turned_describes _ hm)
  exact ⟨s, r, c, h1, h2, h4, h5, h3⟩

theorem turned_json {c : Str} (hc : KnownConvention c) : ∃ r, sampleFromJson (document (turned c)) = .ok r ∧ r.latt = Demo.cube :=
  C84_accepted (L := Demo.cube) (by norm_num [Acceptable, Demo.cube]) rfl rfl rfl rfl rfl rfl
    (fun v hv => ⟨_, (Option.some.inj hv).symm, rfl⟩) (fun v hv => ⟨_, (Option.some.inj hv).symm, rfl⟩)
    (fun v hv => nomatch hv) (fun v hv => ⟨c, by
      have : given (document (turned c)) "convention".toList = some (.str c) := rfl
      exact Option.some.inj (hv.symm.trans this), hc⟩)

/-- From the scan and from the file the same sample, if the file is written in the axes of the instrument program. -/
example : ∃ s r r', sampleFromScan s = .ok r ∧ sampleFromJson (document (turned "Spice".toList)) = .ok r' ∧
    r.forAngles = r'.forAngles := by
  obtain ⟨f, _, s, hm, _, h⟩ := turned_loaded "Spice".toList
  obtain ⟨r', hr', hL⟩ := turned_json (c := "Spice".toList) (by unfold KnownConvention; decide)
  obtain ⟨r, c, c', h1, _, _, _, _, _, _, h2⟩ := C105_same_partial (turned_tidy _) h (turned_describes _ hm) (by simp [turned])
    (by simp [turned]) (.inr rfl) hr' hL
  exact ⟨s, r, r', h1, hr', h2 rfl⟩

/-- The same file in the axes of Mantid: the scan turns the crystal. -/
example : ∃ s r r' c c' m m', sampleFromScan s = .ok r ∧ sampleFromJson (document (turned "Mantid".toList)) = .ok r' ∧
    r.ubConf = some c ∧ r'.ubConf = some c' ∧ c.ubMat = some m ∧ c'.ubMat = some m' ∧ m ≠ m' := by
  obtain ⟨f, _, s, hm, _, h⟩ := turned_loaded "Mantid".toList
  obtain ⟨r', hr', hL⟩ := turned_json (c := "Mantid".toList) (by unfold KnownConvention; decide)
  obtain ⟨r, c, c', m, m', h1, h2, h3, h4, h5, hub, h6, h7⟩ := C105_convention (turned_tidy _) h (turned_describes _ hm) (by simp [turned])
    rfl hr'
  refine ⟨s, r, r', c, c', m, m', h1, hr', h2, h3, h4, h5, fun e => ?_⟩
  have hall : ∀ hkl, (m' *ᵥ hkl) 1 = 0 ∧ (m' *ᵥ hkl) 2 = 0 := fun hkl => h7 hkl (by rw [e])
  have := (hall ![1, 0, 0]).1
  rw [hub] at this
  simp [rows, Matrix.mulVec, dotProduct, Fin.sum_univ_three] at this

end JsonDemo

end Tavi
