import Verif.Props.FolderSession
import Verif.Props.ConvertDemo

/-!
# Sessions loaded from folders: concrete cases (C102)
-/

namespace Tavi

open Spec

namespace Demo

theorem four_shown : ∃ f s, Plottable f ∧ datasetOf f "HB1A".toList "exp0266".toList = "IPTSIPTS-890_HB1A_exp0266".toList ∧
    Loaded plainDate (fun _ => none) fourDisk ["exp".toList, "Datafiles".toList] "HB1A_exp0266_scan0034.dat".toList f
      (datasetOf f "HB1A".toList "exp0266".toList) (scanName 34) s := by
  obtain ⟨f, hf, hc, hm, d, hd⟩ := loads (disk := fourDisk) (name := "HB1A_exp0266_scan0034.dat".toList) (lines := fourLines)
    (cols := fourCols) (md := normalMeta)
    (by rw [fourDisk, if_neg (by decide +kernel), if_pos (by decide +kernel)]) (by decide +kernel) four_no_ub
    (by decide +kernel) (by decide +kernel)
  obtain ⟨s, hs⟩ := bare_scan hf (by rw [hm]; decide) hd (by rw [hc]; decide +kernel) (by decide) (scanName 34)
  refine ⟨f, _, ⟨four_plain hc, "e".toList, "detector".toList, header_of hm (by decide), header_of hm (by decide), by decide,
    four_abscissa f, four_ordinate f⟩, ?_, loaded_of hf hd hs _⟩
  rw [datasetOf, header_of hm (k := "proposal".toList) (v := "IPTS-890".toList) (by decide)]; decide

/-- What is written to the folder `out`. -/
theorem four_written {disk' : Disk}
    (h : convertSpice plainDate (fun _ => none) [] convertDisk fourListing "exp".toList (some "out/".toList) = .ok disk') :
    Lists disk' ["out".toList] ["scan0034.h5".toList] := by
  obtain ⟨es, first, i, x, n, f, h1, h2, h3, h4, h5, h6⟩ := C86_files plainDate (fun _ => none) [] convertDisk disk' fourListing "exp".toList
    (some "out/".toList) four_conventional (fun file hf => by rw [mem_four hf]; decide) h
  obtain ⟨k1, k2, k3, k4, k5⟩ := h6 ["out".toList] (Output.given "out".toList)
  obtain ⟨_, g0, _, _, _, _, _, _, _, _, _, h6⟩ := C78_folder _ _ _ _ _ four_conventional es h1
  have hes : ∀ n d, (n, d) ∈ es → n = scanName 34 := by
    intro n d hm
    obtain ⟨file, j, y, d, hf, hs, _⟩ := (h6 n d).1 hm
    rw [mem_four hf] at hs
    exact (hs.unique scanFile34).2.2
  intro name
  have ht : disk'.text (["out".toList] ++ [name]) = none := by
    rw [k5 _ fun hp => by simpa using hp.length_le]
    rw [convertDisk]
    dsimp only
    rw [fourDisk, if_neg (by simp), if_neg (by simp)]
  rw [ht, List.mem_singleton]
  constructor
  · rintro rfl
    left
    obtain ⟨d, hd⟩ := g0 "HB1A_exp0266_scan0034.dat".toList (by decide) scanFile34.suffix
    obtain ⟨g, -, hg⟩ := k1 (scanName 34) _ ((h6 _ _).2 ⟨_, _, _, d, by decide, scanFile34, fun file' hf' _ _ _ => by rw [mem_four hf'], hd, rfl⟩)
    rw [name34] at hg
    rw [show ["out".toList] ++ ["scan0034.h5".toList] = ["out".toList] ++ ["scan0034.h5".toList] from rfl, hg]
    simp
  · rintro (hm | hm)
    · by_contra hne
      refine hm ((k2 _ fun n d hd heq => hne ?_).trans rfl)
      rw [hes n d hd, name34] at heq
      simpa using heq
    · exact absurd rfl hm

/-- The folder `exp` is converted to `out`; a session that loads `out` and one that loads `exp` have the same scan 34, and both have
no scan 35. -/
example : ∃ (disk' : Disk) (data data' : TaviData) (s : ScanObj),
    convertSpice plainDate (fun _ => none) [] convertDisk fourListing "exp".toList (some "out/".toList) = .ok disk' ∧
    loadSpiceDisk plainDate (fun _ => none) [] convertDisk fourListing "exp".toList [] = .ok data ∧
    loadNexusDisk [] disk' ["scan0034.h5".toList] "out".toList [] = .ok data' ∧
    ∀ l l' : List ScanRequest,
      ((ScanRequest.get (.num 34)).answer (fun _ => ["divergence_x".toList]) (afterRequests (fun _ => ["divergence_x".toList]) data l)).1 =
        .ok [s] ∧
      (∃ s', ((ScanRequest.get (.num 34)).answer (fun _ => []) (afterRequests (fun _ => []) data' l')).1 = .ok [s'] ∧ SameScan s s') ∧
      ((ScanRequest.get (.num 35)).answer (fun _ => ["divergence_x".toList]) (afterRequests (fun _ => ["divergence_x".toList]) data l)).1 =
        .error .keyError ∧
      ((ScanRequest.get (.num 35)).answer (fun _ => []) (afterRequests (fun _ => []) data' l')).1 = .error .keyError := by
  obtain ⟨f, s, hp, hds, hl⟩ := four_shown
  obtain ⟨disk', _, _, _, hconv, _⟩ := four_out (spice := "exp".toList) (nexus := some "out/".toList) (out := ["out".toList])
    (by decide) (fun f _ => Output.given "out".toList) (by
    intro q l hq
    rcases List.prefix_cons_iff.1 hq with rfl | ⟨q', rfl, hq'⟩
    · rw [fourDisk, if_neg (by decide), if_neg (by decide)]; simp
    · rw [List.prefix_nil.1 hq', fourDisk, if_neg (by decide), if_neg (by decide)]; simp)
  have huniq : ∀ {file i x n : Str}, file ∈ fourListing → ScanFile file i x n → n = scanName 34 := fun hf hs => by
    rw [mem_four hf] at hs
    exact (hs.unique scanFile34).2.2
  have hsteady : AllSteady [] := fun e n d hd => by cases hd
  obtain ⟨data, data', g1, g2, g3⟩ := C102_converted plainDate (fun _ => none) [] convertDisk disk' fourListing "exp".toList
    (some "out/".toList) four_conventional (fun file hf => by rw [mem_four hf]; decide) hconv _ _ _ _ f (by decide) scanFile34
    (fun file hf _ => by rw [mem_four hf]) hl.1 ["out".toList] (Output.given "out".toList)
    (fun name hs => ⟨rfl, by
      rw [convertDisk]
      dsimp only
      rw [fourDisk, if_neg (by simp), if_neg (by simp)]⟩)
    ⟨_, by decide, _, _, _, scanFile34, ⟨_, rfl⟩⟩
    (fun file hf j y n hs _ => by rw [huniq hf hs, mem_four hf]; exact ⟨f, s, hp, hl⟩)
    ["scan0034.h5".toList] (four_written hconv) "out".toList (by decide) (by decide) [] [] hsteady hsteady
  have h34 := fun l l' => (g3 (fun _ => ["divergence_x".toList]) (fun _ => []) rfl rfl l l' 34 (.num 34) (.inr ⟨rfl, rfl, rfl⟩)).1
    _ (by decide) _ _ f s scanFile34 (fun file hf _ _ _ => by rw [mem_four hf]) hl
  have h35 := fun l l' => (g3 (fun _ => ["divergence_x".toList]) (fun _ => []) rfl rfl l l' 35 (.num 35) (.inr ⟨rfl, rfl, rfl⟩)).2
    fun file hf j y hs => absurd (huniq hf hs) (by decide +kernel)
  exact ⟨disk', data, data', s, hconv, g1, g2, fun l l' => ⟨(h34 l l').1, (h34 l l').2, h35 l l'⟩⟩

/-- A text file called `scan_notes` in the folder. -/
example (listing : List Str) (h : "scan_notes".toList ∈ listing) (data : TaviData) :
    loadNexusDisk [] ⟨fun q => if q = ["out".toList] then some .folder else none, fun _ => none⟩ listing "out".toList data =
      .error .fileNotFound := by
  refine (C102_refused [] _ listing "out".toList data).2.2.2 "scan_notes".toList h (by decide) ?_ ⟨"_notes".toList, rfl⟩ (by decide) rfl
  dsimp only
  rw [if_pos (by decide)]

/-- A file with one entry, of experiment `e`. -/
def oneEntry (e : Str) : NxFile :=
  ⟨.node none [] (.cons "scan0034".toList (.node none [("dataset_name".toList, .str e)] .nil) .nil), []⟩

/-- A folder with two files, each with an entry `scan0034`. -/
def twoDisk : Disk :=
  ⟨fun q => if q = ["out".toList] then some .folder else none,
   fun q => if q = ["out".toList, "scan0034.h5".toList] then some (oneEntry "exp1".toList)
     else if q = ["out".toList, "scan0034_b.h5".toList] then some (oneEntry "exp2".toList) else none⟩

/-- Only the entry of the second file is loaded, although the experiments differ. -/
example : ∃ data', loadNexusDisk [] twoDisk ["scan0034_b.h5".toList, "notes.txt".toList, "scan0034.h5".toList] "out/".toList [] = .ok data' ∧
    filed data' "exp1".toList "scan0034".toList = none ∧ ∃ d, filed data' "exp2".toList "scan0034".toList = some d := by
  have hentry : ∀ e, readEntries (oneEntry e).resolved.children = [("scan0034".toList, readNode (.node none [("dataset_name".toList, .str e)] .nil))] :=
    fun e => rfl
  have hexp : ∀ e, expOf (readNode (.node none [("dataset_name".toList, .str e)] .nil)) = some e := fun e => rfl
  have hdec : ∀ f ∈ ["scan0034_b.h5".toList, "notes.txt".toList, "scan0034.h5".toList], "scan".toList <+: f →
      ∃ e, twoDisk.nexus (["out".toList] ++ [f]) = some (oneEntry e) ∧ (e = "exp1".toList → f = "scan0034.h5".toList) := by
    intro f hf hs
    simp only [List.mem_cons, List.not_mem_nil, or_false] at hf
    rcases hf with rfl | rfl | rfl
    · exact ⟨"exp2".toList, by rw [twoDisk]; dsimp only; rw [if_neg (by decide), if_pos (by decide)], fun h => absurd h (by decide)⟩
    · exact absurd (List.isPrefixOf_iff_prefix.2 hs) (by decide)
    · exact ⟨"exp1".toList, by rw [twoDisk]; dsimp only; rw [if_pos (by decide)], fun _ => rfl⟩
  obtain ⟨data', h1, h2⟩ := C102_folder [] twoDisk ["scan0034_b.h5".toList, "notes.txt".toList, "scan0034.h5".toList] "out/".toList []
    (by decide) (by rw [twoDisk]; dsimp only; rw [if_pos (by decide)]) (by decide) (fun f hf hs => by
      obtain ⟨e, he, -⟩ := hdec f hf hs
      refine ⟨oneEntry e, he, by rw [hentry]; simp, fun nd hnd => ?_⟩
      rw [hentry, List.mem_singleton] at hnd
      rw [hnd]
      exact ⟨e, hexp e⟩)
  have hb : HasEntry twoDisk ["out".toList] "scan0034_b.h5".toList "scan0034".toList
      (readNode (.node none [("dataset_name".toList, .str "exp2".toList)] .nil)) :=
    ⟨oneEntry "exp2".toList, by rw [twoDisk]; dsimp only; rw [if_neg (by decide), if_pos (by decide)], by rw [hentry]; exact List.mem_singleton.2 rfl⟩
  refine ⟨data', h1, ?_, _, (h2 _ _ _).2 (.inl ⟨⟨"scan0034_b.h5".toList, by decide, ⟨"0034_b.h5".toList, rfl⟩, hb, fun f' hf' hs' _ => ?_⟩, hexp _⟩)⟩
  · cases hx : filed data' "exp1".toList "scan0034".toList with
    | none => rfl
    | some d =>
      rcases (h2 _ _ _).1 hx with ⟨⟨f, hf, hs, ⟨g, hg, hd⟩, hmax⟩, he⟩ | ⟨-, h⟩
      · exfalso
        obtain ⟨e, he', hf34⟩ := hdec f hf hs
        obtain rfl := Option.some.inj (hg.symm.trans he')
        rw [hentry, List.mem_singleton] at hd
        rw [(Prod.mk.inj hd).2, hexp] at he
        rw [hf34 (Option.some.inj he)] at hmax
        exact absurd (hmax "scan0034_b.h5".toList (by decide) ⟨"0034_b.h5".toList, rfl⟩ ⟨_, hb⟩) (by decide)
      · cases h
  · simp only [List.mem_cons, List.not_mem_nil, or_false] at hf'
    rcases hf' with rfl | rfl | rfl
    · exact le_rfl
    · exact absurd (List.isPrefixOf_iff_prefix.2 hs') (by decide)
    · decide

end Demo

end Tavi
