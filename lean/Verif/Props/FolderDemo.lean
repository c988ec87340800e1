import Verif.Props.Folder
import Verif.Props.MeasurementDemo

/-!
# Folders (cases for C78 and C79)
-/

namespace Tavi

open Spec

namespace Demo

/-- A folder with two scans and something else. -/
def twoListing : List Str :=
  ["HB1A_exp0266_scan0028.dat".toList, "notes.txt".toList, "HB1A_exp0266_scan0027.dat".toList]

theorem scanFile27 : ScanFile "HB1A_exp0266_scan0027.dat".toList "HB1A".toList "exp0266".toList (scanName 27) := by
  constructor <;> decide +kernel

theorem scanFile28 : ScanFile "HB1A_exp0266_scan0028.dat".toList "HB1A".toList "exp0266".toList (scanName 28) := by
  constructor <;> decide +kernel

theorem scanFileTwin : ScanFile "CG4C_exp0424_scan0027.dat".toList "CG4C".toList "exp0424".toList (scanName 27) := by
  constructor <;> decide +kernel

theorem two_conventional : Conventional twoListing := by
  refine ⟨by decide +kernel, fun file hf hd => ?_⟩
  simp only [twoListing, List.mem_cons, List.not_mem_nil, or_false] at hf
  rcases hf with rfl | rfl | rfl
  · exact ⟨_, _, _, scanFile28⟩
  · exact absurd (List.isSuffixOf_iff_suffix.2 hd) (by decide +kernel)
  · exact ⟨_, _, _, scanFile27⟩

theorem load_data : HasData loadDisk ["exp".toList] := by
  constructor
  · rw [loadDisk, if_pos (by decide)]
  · rw [loadDisk, if_pos (by decide)]

theorem two_from : ∃ es, fromSpice plainDate (fun _ => none) loadDisk ["exp".toList] twoListing none = .ok es := by
  obtain ⟨f, hf, hc, hm, d, hd⟩ := normal_loads
  obtain ⟨f', hf', hc', hm', d', hd'⟩ := polar_loads
  have hsort : sortStr (wantedFiles none twoListing) =
      ["HB1A_exp0266_scan0027.dat".toList, "HB1A_exp0266_scan0028.dat".toList] := by decide +kernel
  apply Exists.intro
  rw [fromSpice_eq load_data, spiceDataToNx, hsort]
  show (Except.ok _ >>= _) = _
  rw [py_bind_ok]
  show (readSpiceDatafile loadDisk (loadDir ++ _) >>= _) = _
  rw [hf, py_bind_ok, scanFile27.dataset, py_bind_ok, filesToNx, scanFile27.entry, py_bind_ok]
  show (fileToNx _ _ _ loadDir _ >>= _) = _
  rw [hd, py_bind_ok, filesToNx, scanFile28.entry, py_bind_ok]
  show (fileToNx _ _ _ loadDir _ >>= _) = _
  rw [hd', py_bind_ok]
  exact rfl

/-- Loading the folder gives both scans. -/
example : ∃ (es : List (Str × Dict)) (e27 e28 : Dict),
    fromSpice plainDate (fun _ => none) loadDisk ["exp".toList] twoListing none = .ok es ∧
    es = [(scanName 27, e27), (scanName 28, e28)] := by
  obtain ⟨es, hes⟩ := two_from
  obtain ⟨files, ds, hp, hs, hall⟩ := C78_one_each_partial plainDate (fun _ => none) loadDisk ["exp".toList] twoListing
    two_conventional es hes (by
      intro a ha b hb i x j y n hsa hsb
      have key : ∀ c ∈ twoListing, ∀ i x n, ScanFile c i x n →
          c = "HB1A_exp0266_scan0027.dat".toList ∧ n = scanName 27 ∨ c = "HB1A_exp0266_scan0028.dat".toList ∧ n = scanName 28 := by
        intro c hc i x n hs
        simp only [twoListing, List.mem_cons, List.not_mem_nil, or_false] at hc
        rcases hc with rfl | rfl | rfl
        · exact .inr ⟨rfl, (hs.unique scanFile28).2.2⟩
        · exact absurd (List.isSuffixOf_iff_suffix.2 hs.suffix) (by decide +kernel)
        · exact .inl ⟨rfl, (hs.unique scanFile27).2.2⟩
      have hne : scanName 27 ≠ scanName 28 := by decide +kernel
      rcases key a ha i x n hsa with ⟨rfl, rfl⟩ | ⟨rfl, rfl⟩ <;> rcases key b hb j y _ hsb with ⟨rfl, h⟩ | ⟨rfl, h⟩
      · rfl
      · exact absurd h hne
      · exact absurd h (Ne.symm hne)
      · rfl)
  have hfiles : files = ["HB1A_exp0266_scan0027.dat".toList, "HB1A_exp0266_scan0028.dat".toList] := by
    refine (hp.trans (l₃ := ["HB1A_exp0266_scan0027.dat".toList, "HB1A_exp0266_scan0028.dat".toList]) (by decide +kernel)).eq_of_pairwise
      (le := (· < ·)) (fun a b _ _ h1 h2 => absurd h1 (not_lt_of_gt h2)) hs (by decide +kernel)
  rw [hfiles] at hall
  cases hall with
  | cons h1 hall =>
    cases hall with
    | cons h2 hall =>
      cases hall with
      | nil =>
        rename_i a b
        obtain ⟨i, x, d1, hs1, _⟩ := h1
        obtain ⟨j, y, d2, hs2, _⟩ := h2
        obtain ⟨_, _, e1⟩ := hs1.unique scanFile27
        obtain ⟨_, _, e2⟩ := hs2.unique scanFile28
        exact ⟨_, a.2, b.2, hes, by rw [← e1, ← e2]⟩

/-- The scan with the number 27. -/
example : ∃ s : ScanObj, scanFromSpice plainDate (fun _ => none) loadDisk ["exp".toList] twoListing 27 = .ok s ∧ s.name = scanName 27 ∧
    lookupKey "en".toList s.data = some (some (.leaf (.fin [((-30007 / 10000 : ℚ) : ℝ), ((-32501 / 10000 : ℚ) : ℝ)]))) := by
  obtain ⟨f, hf, hc, hm, d, hd⟩ := normal_loads
  obtain ⟨s, hs⟩ := demo_scan hf (.inl hm) hd (by rw [hc]; decide +kernel) (by decide) (scanName 27)
  have honly : ∀ b ∈ twoListing, scanName 27 ++ ".dat".toList <:+ b → b = "HB1A_exp0266_scan0027.dat".toList := by
    intro b hb hsuf
    have := List.isSuffixOf_iff_suffix.2 hsuf
    simp only [twoListing, List.mem_cons, List.not_mem_nil, or_false] at hb
    rcases hb with rfl | rfl | rfl
    · exact absurd this (by decide +kernel)
    · exact absurd this (by decide +kernel)
    · rfl
  have h := (C79_scan plainDate (fun _ => none) loadDisk ["exp".toList] twoListing 27 load_data two_conventional.1 _ _ _
    (by decide +kernel) scanFile27 honly _).2 ⟨f, loaded_of hf hd hs _⟩
  obtain ⟨h1, f', hf', hdat⟩ := C79_data_partial plainDate (fun _ => none) loadDisk ["exp".toList] twoListing 27 load_data
    two_conventional.1 _ _ _ (by decide +kernel) scanFile27 honly _ h
  obtain rfl := Except.ok.inj (hf.symm.trans hf')
  refine ⟨_, h, h1, ?_⟩
  exact hdat 0 (by rw [hc]; exact ⟨fun i h1 h2 => by omega, by decide +kernel⟩) "e".toList "en".toList false (.renamed (by decide))
    [some (-30007 / 10000), some (-32501 / 10000)] (by rw [hc]; decide +kernel)
    (fun i hi => absurd hi ((show NotNumbered "en".toList by decide).ne (q := "detector".toList) (by decide) i ∘ fun e => by
      rw [suffixed_eq]; exact e))

/-- There is no scan with the number 30. -/
example : scanFromSpice plainDate (fun _ => none) loadDisk ["exp".toList] twoListing 30 = .error .indexError := by
  refine C79_missing _ _ _ _ _ 30 load_data fun b hb hsuf => ?_
  have := List.isSuffixOf_iff_suffix.2 hsuf
  simp only [twoListing, List.mem_cons, List.not_mem_nil, or_false] at hb
  rcases hb with rfl | rfl | rfl <;> exact absurd this (by decide +kernel)

/-! ## Two scans of the same number -/

/-- Two experiments in one folder. -/
def twinDisk : FS := fun p =>
  if p = ["exp".toList] ∨ p = ["exp".toList, "Datafiles".toList] then some .folder
  else if p = ["exp".toList, "Datafiles".toList, "HB1A_exp0266_scan0027.dat".toList] then some (.file normalLines)
  else if p = ["exp".toList, "Datafiles".toList, "CG4C_exp0424_scan0027.dat".toList] then some (.file polarLines)
  else none

/-- The names of the files. -/
def twinListing : List Str := ["HB1A_exp0266_scan0027.dat".toList, "CG4C_exp0424_scan0027.dat".toList]

theorem twin_no_ub (p : List Str) : twinDisk ("exp".toList :: "UBConf".toList :: p) = none := by
  unfold twinDisk
  have h1 : ∀ q : List Str, ("exp".toList :: "UBConf".toList :: p : List Str) ≠ "exp".toList :: "Datafiles".toList :: q := by
    intro q h
    have := (List.cons.inj (List.cons.inj h).2).1
    exact absurd this (by decide)
  rw [if_neg, if_neg (h1 _), if_neg (h1 _)]
  rintro (h | h)
  · exact absurd (List.cons.inj h).2 (by simp)
  · exact h1 [] h

theorem twin_data : HasData twinDisk ["exp".toList] := by
  constructor
  · rw [twinDisk, if_pos (by decide)]
  · rw [twinDisk, if_pos (by decide)]

theorem twin_conventional : Conventional twinListing := by
  refine ⟨by decide +kernel, fun file hf hd => ?_⟩
  simp only [twinListing, List.mem_cons, List.not_mem_nil, or_false] at hf
  rcases hf with rfl | rfl
  · exact ⟨_, _, _, scanFile27⟩
  · exact ⟨_, _, _, scanFileTwin⟩

/-- Only one of them is loaded, and asking for the scan gives the one of the second experiment. -/
example : ∃ (es : List (Str × Dict)) (s : ScanObj),
    fromSpice plainDate (fun _ => none) twinDisk ["exp".toList] twinListing none = .ok es ∧ es.length < 2 ∧
    scanFromSpice plainDate (fun _ => none) twinDisk ["exp".toList] twinListing 27 = .ok s ∧
    ∃ f ds, f.metadata = normalMeta ∧ ds = "IPTSIPTS-890_CG4C_exp0424".toList ∧
      Loaded plainDate (fun _ => none) twinDisk loadDir "HB1A_exp0266_scan0027.dat".toList f ds (scanName 27) s := by
  obtain ⟨f, hf, hc, hm, d, hd⟩ := loads (disk := twinDisk) (name := "HB1A_exp0266_scan0027.dat".toList) (lines := normalLines)
    (cols := normalCols) (md := normalMeta) (by rw [twinDisk, if_neg (by decide +kernel), if_pos (by decide +kernel)])
    (by decide +kernel) twin_no_ub (by decide +kernel) (by decide +kernel)
  obtain ⟨f', hf', hc', hm', d', hd'⟩ := loads (disk := twinDisk) (name := "CG4C_exp0424_scan0027.dat".toList) (lines := polarLines)
    (cols := polarCols) (md := polarMeta)
    (by rw [twinDisk, if_neg (by decide +kernel), if_neg (by decide +kernel), if_pos (by decide +kernel)])
    (by decide +kernel) twin_no_ub (by decide +kernel) (by decide +kernel)
  have hsort : ∀ sn, sn = none ∨ sn = some 27 → sortStr (wantedFiles sn twinListing) =
      ["CG4C_exp0424_scan0027.dat".toList, "HB1A_exp0266_scan0027.dat".toList] := by
    rintro sn (rfl | rfl) <;> decide +kernel
  have hfrom : ∀ sn, sn = none ∨ sn = some 27 → fromSpice plainDate (fun _ => none) twinDisk ["exp".toList] twinListing sn =
      .ok [(scanName 27, setDatasetName d (datasetOf f' "CG4C".toList "exp0424".toList))] := by
    intro sn hsn
    rw [fromSpice_eq twin_data, spiceDataToNx, hsort sn hsn]
    show (Except.ok _ >>= _) = _
    rw [py_bind_ok]
    show (readSpiceDatafile twinDisk (loadDir ++ _) >>= _) = _
    rw [hf', py_bind_ok, scanFileTwin.dataset, py_bind_ok, filesToNx, scanFileTwin.entry, py_bind_ok]
    show (fileToNx _ _ _ loadDir _ >>= _) = _
    rw [hd', py_bind_ok, filesToNx, scanFile27.entry, py_bind_ok]
    show (fileToNx _ _ _ loadDir _ >>= _) = _
    rw [hd, py_bind_ok, filesToNx, assocSet, assocSet, if_pos rfl]
  obtain ⟨s, hs⟩ := bare_scan hf (by rw [hm]; decide) hd (by rw [hc]; decide +kernel) (by decide) (scanName 27)
  have hl := loaded_of hf hd hs (datasetOf f' "CG4C".toList "exp0424".toList)
  obtain ⟨_, d0, hd0, hs0⟩ := hl
  obtain rfl := Except.ok.inj (hd.symm.trans hd0)
  have hscan := hs0
  rw [show newScan ["divergence_x".toList] (scanName 27) (setDatasetName d (datasetOf f' "CG4C".toList "exp0424".toList)) =
    scanFromSpice plainDate (fun _ => none) twinDisk ["exp".toList] twinListing 27 by
      rw [scanFromSpice, hfrom _ (.inr rfl), py_bind_ok]] at hscan
  refine ⟨_, _, hfrom _ (.inl rfl), ?_, hscan, ?_⟩
  · exact C78_scan_lost plainDate (fun _ => none) twinDisk ["exp".toList] twinListing twin_conventional _ (hfrom _ (.inl rfl))
      "HB1A_exp0266_scan0027.dat".toList "CG4C_exp0424_scan0027.dat".toList _ _ _ _ _ (by decide +kernel) (by decide +kernel)
      scanFile27 scanFileTwin (by decide +kernel)
  · obtain ⟨first, last, i, x, g, g0, h1, h2, h3, h4, h5, h6⟩ := C79_ambiguous plainDate (fun _ => none) twinDisk ["exp".toList]
      twinListing 27 twin_conventional.1 (by
        intro a ha _
        simp only [twinListing, List.mem_cons, List.not_mem_nil, or_false] at ha
        rcases ha with rfl | rfl
        · exact ⟨_, _, scanFile27⟩
        · exact ⟨_, _, scanFileTwin⟩) _ hscan
    have e1 := (h4 "CG4C_exp0424_scan0027.dat".toList (by decide +kernel) (List.isSuffixOf_iff_suffix.1 (by decide +kernel))).1
    have e2 := (h4 "HB1A_exp0266_scan0027.dat".toList (by decide +kernel) (List.isSuffixOf_iff_suffix.1 (by decide +kernel))).2
    simp only [twinListing, List.mem_cons, List.not_mem_nil, or_false] at h1 h2
    obtain rfl : first = "CG4C_exp0424_scan0027.dat".toList := by
      rcases h1 with rfl | rfl
      · exact absurd e1 (by decide +kernel)
      · rfl
    obtain rfl : last = "HB1A_exp0266_scan0027.dat".toList := by
      rcases h2 with rfl | rfl
      · rfl
      · exact absurd e2 (by decide +kernel)
    obtain rfl := Except.ok.inj (hf.symm.trans h6.1)
    obtain rfl := Except.ok.inj (hf'.symm.trans h5)
    obtain ⟨rfl, rfl, _⟩ := h3.unique scanFileTwin
    refine ⟨f, _, hm, ?_, h6⟩
    rw [datasetOf, header_of hm' (k := "proposal".toList) (v := "IPTS-890".toList) (by decide)]
    decide

end Demo

end Tavi
