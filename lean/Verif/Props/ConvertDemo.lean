import Verif.Props.Convert
import Verif.Props.ScanFileDemo

/-!
# Converting a folder (cases for C86)
-/

namespace Tavi

open Spec

namespace Demo

/-- The disk with one scan, and no NeXus files. -/
def convertDisk : Disk := ⟨fourDisk, fun _ => none⟩

/-- The folder with the data. -/
def fourListing : List Str := ["HB1A_exp0266_scan0034.dat".toList]

theorem scanFile34 : ScanFile "HB1A_exp0266_scan0034.dat".toList "HB1A".toList "exp0266".toList (scanName 34) := by
  constructor <;> decide +kernel

theorem mem_four {file : Str} (h : file ∈ fourListing) : file = "HB1A_exp0266_scan0034.dat".toList := List.mem_singleton.1 h

theorem four_conventional : Conventional fourListing :=
  ⟨by decide, fun file hf _ => by rw [mem_four hf]; exact ⟨_, _, _, scanFile34⟩⟩

theorem four_data : HasData fourDisk ["exp".toList] := by
  constructor
  · rw [fourDisk, if_pos (by decide)]
  · rw [fourDisk, if_pos (by decide)]

theorem name34 : scanName 34 ++ ".h5".toList = "scan0034.h5".toList := by decide +kernel

theorem four_out {spice : Str} {nexus : Option Str} {out : List Str} (hr : resolve [] spice = ["exp".toList])
    (hout : ∀ f, f = "IPTSIPTS-890_HB1A_exp0266".toList → Output [] spice f nexus out)
    (hfree : ∀ q l, q <+: out → fourDisk q ≠ some (.file l)) :
    ∃ (disk' : Disk) (g : NxFile) (s s' : ScanObj), convertSpice plainDate (fun _ => none) [] convertDisk fourListing spice nexus = .ok disk' ∧
      disk'.nexus (out ++ ["scan0034.h5".toList]) = some g ∧ scanFromNexus g none = .ok s' ∧
      lookupKey "en".toList s'.data = lookupKey "en".toList s.data ∧ scanInfo s' = scanInfo s := by
  obtain ⟨f, hf, hc, hm, d, hd⟩ := loads (disk := fourDisk) (name := "HB1A_exp0266_scan0034.dat".toList) (lines := fourLines)
    (cols := fourCols) (md := normalMeta)
    (by rw [fourDisk, if_neg (by decide +kernel), if_pos (by decide +kernel)]) (by decide +kernel) four_no_ub
    (by decide +kernel) (by decide +kernel)
  obtain ⟨s, hs⟩ := bare_scan hf (by rw [hm]; decide) hd (by rw [hc]; decide +kernel) (by decide) (scanName 34)
  have hds : datasetOf f "HB1A".toList "exp0266".toList = "IPTSIPTS-890_HB1A_exp0266".toList := by
    rw [datasetOf, header_of hm (k := "proposal".toList) (v := "IPTS-890".toList) (by decide)]; decide
  have hl := loaded_of hf hd hs (datasetOf f "HB1A".toList "exp0266".toList)
  have huniq : ∀ {file i x n : Str}, file ∈ fourListing → ScanFile file i x n → n = scanName 34 := fun hf hs => by
    rw [mem_four hf] at hs
    exact (hs.unique scanFile34).2.2
  obtain ⟨disk', h1, h2⟩ := C86_scans plainDate (fun _ => none) [] convertDisk fourListing spice nexus four_conventional
    (fun file hf => by rw [mem_four hf]; decide) (by rw [hr]; exact four_data)
    (fun a ha b hb _ _ _ _ _ _ _ => by rw [mem_four ha, mem_four hb])
    _ _ _ _ f (by decide) scanFile34 (fun file hf _ => by rw [mem_four hf]) (by rw [hr]; exact hf) out (hout _ hds) hfree
    (fun file hf j y n hs => by rw [huniq hf hs]; exact ⟨by decide, rfl⟩)
    (fun file hfl j y n hs => by
      rw [huniq hfl hs, mem_four hfl, hr]
      exact ⟨f, _, ⟨four_plain hc, "e".toList, "detector".toList, header_of hm (by decide), header_of hm (by decide), by decide,
        four_abscissa f, four_ordinate f⟩, hl⟩)
  obtain ⟨g, s', h3, h4, _, h5, _, h6, _⟩ := h2 _ (by decide) _ _ _ scanFile34 f _ (by rw [hr]; exact hl)
  rw [name34] at h3
  exact ⟨disk', g, _, s', h1, h3, h4, h5 _ (by decide) (by decide), h6⟩

/-- The folder `exp` is converted to files in the folder `IPTSIPTS-890_HB1A_exp0266` beside it. -/
example : ∃ (disk' : Disk) (g : NxFile) (s s' : ScanObj),
    convertSpice plainDate (fun _ => none) [] convertDisk fourListing "./exp".toList none = .ok disk' ∧
    disk'.nexus ["IPTSIPTS-890_HB1A_exp0266".toList, "scan0034.h5".toList] = some g ∧ scanFromNexus g none = .ok s' ∧
    lookupKey "en".toList s'.data = lookupKey "en".toList s.data ∧ scanInfo s' = scanInfo s :=
  four_out (spice := "./exp".toList) (by decide) (fun f hf => by
    rw [hf]
    exact Output.beside "./".toList "exp".toList (.inr ⟨".".toList, rfl⟩) rfl (by decide) (by decide) (by decide)) (by
    intro q l hq
    rcases List.prefix_cons_iff.1 hq with rfl | ⟨q', rfl, hq'⟩
    · rw [fourDisk, if_neg (by decide), if_neg (by decide)]; simp
    · rw [List.prefix_nil.1 hq', fourDisk, if_neg (by decide), if_neg (by decide)]; simp)

/-- The files are put into the folder given, but not if its text lacks the slash. -/
example : (∃ (disk' : Disk) (g : NxFile), convertSpice plainDate (fun _ => none) [] convertDisk fourListing "exp".toList (some "out/".toList) = .ok disk' ∧
      disk'.nexus ["out".toList, "scan0034.h5".toList] = some g) ∧
    ∀ disk', convertSpice plainDate (fun _ => none) [] convertDisk fourListing "exp".toList (some "out".toList) = .ok disk' →
      disk'.nexus ["out".toList, "scan0034.h5".toList] = none ∧ ∃ g, disk'.nexus ["outscan0034.h5".toList] = some g := by
  constructor
  · obtain ⟨disk', g, _, _, h1, h2, _⟩ := four_out (spice := "exp".toList) (nexus := some "out/".toList) (out := ["out".toList])
      (by decide) (fun f _ => Output.given "out".toList) (by
      intro q l hq
      rcases List.prefix_cons_iff.1 hq with rfl | ⟨q', rfl, hq'⟩
      · rw [fourDisk, if_neg (by decide), if_neg (by decide)]; simp
      · rw [List.prefix_nil.1 hq', fourDisk, if_neg (by decide), if_neg (by decide)]; simp)
    exact ⟨disk', g, h1, h2⟩
  · intro disk' h
    obtain ⟨_, h2, es, h3, h4, h5⟩ := C86_no_slash plainDate (fun _ => none) [] convertDisk disk' fourListing "exp".toList [] "out".toList
      (.inl rfl) (by decide) (by decide) (by decide) four_conventional (fun file hf => by rw [mem_four hf]; decide) h
    refine ⟨h2 _ ⟨["scan0034.h5".toList], rfl⟩, ?_⟩
    obtain ⟨_, _, _, _, _, _, _, _, _, _, _, h6⟩ := C78_folder _ _ _ _ _ four_conventional es h3
    cases es with
    | nil => exact absurd rfl h4
    | cons e rest =>
      obtain ⟨file, j, y, d, hf, hs, _⟩ := (h6 e.1 e.2).1 List.mem_cons_self
      have hn : e.1 = scanName 34 := by
        rw [mem_four hf] at hs
        exact (hs.unique scanFile34).2.2
      obtain ⟨g, hg⟩ := h5 e.1 e.2 List.mem_cons_self
      rw [hn, List.append_assoc, name34] at hg
      exact ⟨g, hg⟩

end Demo

end Tavi
