import Verif.Props.ConfBack
import Verif.Props.Convert

/-!
# Converting a folder with configuration files (C107)
-/

namespace Tavi

open Spec

/-! ## The loop over the files -/

section
variable {iso : Str → Py Str} {xml : List Str → Option Str} {ji : JPath (List (Str × JSec))} {js : JPath (List (Str × JVal))} {fs : FS} {dir : List Str} {ds : Str}

/-- The entry made from a file. -/
def ConfEntry (iso : Str → Py Str) (xml : List Str → Option Str) (ji : JPath (List (Str × JSec))) (js : JPath (List (Str × JVal)))
    (fs : FS) (dir : List Str) (ds file n : Str) (e : Dict) : Prop :=
  entryName file = .ok n ∧ ∃ d, fileToNxWith iso xml ji js fs dir file = .ok d ∧ e = setDatasetName d ds

theorem conf_files_inv : ∀ (L : List Str) (acc es : List (Str × Dict)), L.Pairwise (· < ·) → (acc.map Prod.fst).Nodup →
    filesToNxWith iso xml ji js fs dir ds L acc = .ok es →
    (es.map Prod.fst).Nodup ∧ (∀ file ∈ L, ∃ n e, ConfEntry iso xml ji js fs dir ds file n e) ∧
    ∀ n e, lookupKey n es = some e ↔
      (∃ file ∈ L, ConfEntry iso xml ji js fs dir ds file n e ∧ ∀ file' ∈ L, entryName file' = .ok n → file' ≤ file) ∨
      (lookupKey n acc = some e ∧ ∀ file ∈ L, entryName file ≠ .ok n)
  | [], acc, es, _, hacc, h => by
    obtain rfl := Except.ok.inj h
    exact ⟨hacc, by simp, by simp⟩
  | f :: rest, acc, es, hL, hacc, h => by
    rw [List.pairwise_cons] at hL
    rw [filesToNxWith] at h
    obtain ⟨n0, h1, h⟩ := py_bind_eq_ok.1 h
    obtain ⟨d0, h2, h⟩ := py_bind_eq_ok.1 h
    obtain ⟨g1, g2, g3⟩ := conf_files_inv rest _ es hL.2 (nodup_assocSet hacc n0 _) h
    refine ⟨g1, ?_, fun n e => ?_⟩
    · rintro file (_ | ⟨_, hf⟩)
      · exact ⟨n0, _, h1, d0, h2, rfl⟩
      · exact g2 file hf
    · rw [g3, lookupKey_assocSet]
      constructor
      · rintro (⟨file, hf, he, hm⟩ | ⟨hl, hno⟩)
        · refine .inl ⟨file, List.mem_cons_of_mem _ hf, he, ?_⟩
          rintro file' (_ | ⟨_, hf'⟩) hn
          · exact le_of_lt (hL.1 _ hf)
          · exact hm _ hf' hn
        · by_cases hn : n = n0
          · rw [if_pos hn] at hl
            subst hn
            refine .inl ⟨f, List.mem_cons_self, ⟨h1, d0, h2, (Option.some.inj hl).symm⟩, ?_⟩
            rintro file' (_ | ⟨_, hf'⟩) hn'
            · exact le_rfl
            · exact absurd hn' (hno _ hf')
          · rw [if_neg hn] at hl
            refine .inr ⟨hl, ?_⟩
            rintro file (_ | ⟨_, hf⟩) hn'
            · exact hn (Except.ok.inj (hn'.symm.trans h1))
            · exact hno _ hf hn'
      · rintro (⟨file, hf, he, hm⟩ | ⟨hl, hno⟩)
        · rcases List.mem_cons.1 hf with rfl | hf
          · obtain ⟨e1, d, e2, rfl⟩ := he
            obtain rfl := Except.ok.inj (e1.symm.trans h1)
            obtain rfl := Except.ok.inj (e2.symm.trans h2)
            refine .inr ⟨if_pos rfl, fun file' hf' hn' => ?_⟩
            exact absurd (hm _ (List.mem_cons_of_mem _ hf') hn') (not_le_of_gt (hL.1 _ hf'))
          · exact .inl ⟨file, hf, he, fun file' hf' => hm _ (List.mem_cons_of_mem _ hf')⟩
        · refine .inr ⟨?_, fun file hf => hno _ (List.mem_cons_of_mem _ hf)⟩
          rw [if_neg]
          · exact hl
          · rintro rfl
            exact hno _ List.mem_cons_self h1

/-- All the files can be loaded. -/
theorem conf_files_ok : ∀ (L : List Str) (acc : List (Str × Dict)),
    (∀ file ∈ L, ∃ n e, ConfEntry iso xml ji js fs dir ds file n e) → ∃ es, filesToNxWith iso xml ji js fs dir ds L acc = .ok es
  | [], acc, _ => ⟨acc, rfl⟩
  | f :: rest, acc, h => by
    obtain ⟨n, e, h1, d, h2, _⟩ := h f List.mem_cons_self
    obtain ⟨es, hes⟩ := conf_files_ok rest (assocSet acc n (setDatasetName d ds)) fun file hf => h file (List.mem_cons_of_mem _ hf)
    exact ⟨es, by rw [filesToNxWith, h1, py_bind_ok, h2, py_bind_ok, hes]⟩

end

/-! ## The folder -/

section
variable {iso : Str → Py Str} {xml : List Str → Option Str} {ji : JPath (List (Str × JSec))} {js : JPath (List (Str × JVal))} {fs : FS} {folder listing : List Str}
  {sn : Option ℕ} {es : List (Str × Dict)}

theorem fromSpiceWith_eq (h : HasData fs folder) : fromSpiceWith iso xml ji js fs folder listing sn = spiceDataToNxWith iso xml ji js fs folder listing sn := by
  rw [fromSpiceWith, if_neg (by rw [h.1]; simp), if_neg (by rw [isFolder, h.1]; simp), if_neg (by rw [isFolder, h.2]; simp)]

theorem fromSpiceWith_inv (h : fromSpiceWith iso xml ji js fs folder listing sn = .ok es) : HasData fs folder := by
  have key : ∀ p, ¬ isFolder fs p = false → fs p = some .folder := by
    intro p hp
    unfold isFolder at hp
    split at hp
    · assumption
    · exact absurd rfl hp
  unfold fromSpiceWith at h
  split at h
  · exact absurd h (by simp)
  · split at h
    · exact absurd h (by simp)
    · split at h
      · exact absurd h (by simp)
      · rename_i h1 h2
        exact ⟨key _ h1, key _ h2⟩

theorem conf_spice_inv (hc : Conventional listing) (h : fromSpiceWith iso xml ji js fs folder listing sn = .ok es) :
    ∃ first i x n f, first ∈ wantedFiles sn listing ∧ (∀ file ∈ wantedFiles sn listing, first ≤ file) ∧ ScanFile first i x n ∧
      readSpiceDatafile fs (folder ++ ["Datafiles".toList] ++ [first]) = .ok f ∧
      filesToNxWith iso xml ji js fs (folder ++ ["Datafiles".toList]) (datasetOf f i x) (sortStr (wantedFiles sn listing)) [] = .ok es := by
  rw [fromSpiceWith_eq (fromSpiceWith_inv h), spiceDataToNxWith] at h
  obtain ⟨first, h1, h⟩ := py_bind_eq_ok.1 h
  obtain ⟨f, h2, h⟩ := py_bind_eq_ok.1 h
  obtain ⟨ds, h3, h⟩ := py_bind_eq_ok.1 h
  rw [need_eq_ok] at h1
  have hm : first ∈ wantedFiles sn listing := mem_sortStr.1 (List.mem_of_mem_head? h1)
  obtain ⟨i, x, n, hs⟩ := hc.2 first (mem_wanted.1 hm).1 (wanted_dat (mem_wanted.1 hm).2)
  rw [hs.dataset] at h3
  obtain rfl := Except.ok.inj h3
  refine ⟨first, i, x, n, f, hm, fun file hf => ?_, hs, h2, h⟩
  have hsorted := sortStr_sorted (wantedFiles sn listing)
  have hf' := mem_sortStr.2 hf
  cases hl : sortStr (wantedFiles sn listing) with
  | nil => rw [hl] at h1; exact absurd h1 (by simp)
  | cons a l =>
    rw [hl] at h1 hsorted hf'
    obtain rfl : a = first := by simpa using h1
    rcases List.mem_cons.1 hf' with rfl | hf'
    · exact le_rfl
    · exact (List.pairwise_cons.1 hsorted).1 _ hf'

theorem conf_folder (hc : Conventional listing) (h : fromSpiceWith iso xml ji js fs folder listing none = .ok es) :
    (es.map Prod.fst).Nodup ∧
    (∀ file ∈ listing, ".dat".toList <:+ file → ∃ d, fileToNxWith iso xml ji js fs (folder ++ ["Datafiles".toList]) file = .ok d) ∧
    ∃ first i0 x0 n0 f, first ∈ listing ∧ ScanFile first i0 x0 n0 ∧
      (∀ file ∈ listing, ".dat".toList <:+ file → first ≤ file) ∧
      readSpiceDatafile fs (folder ++ ["Datafiles".toList] ++ [first]) = .ok f ∧
      ∀ n e, (n, e) ∈ es ↔ ∃ file i x d, file ∈ listing ∧ ScanFile file i x n ∧
        (∀ file' ∈ listing, ∀ i' x', ScanFile file' i' x' n → file' ≤ file) ∧
        fileToNxWith iso xml ji js fs (folder ++ ["Datafiles".toList]) file = .ok d ∧ e = setDatasetName d (datasetOf f i0 x0) := by
  obtain ⟨first, i0, x0, n0, f, hm, hle, hs, hf, hfiles⟩ := conf_spice_inv hc h
  obtain ⟨g1, g2, g3⟩ := conf_files_inv _ _ _ (wanted_strict hc) (by simp) hfiles
  have hw : ∀ file, file ∈ sortStr (wantedFiles none listing) ↔ file ∈ listing ∧ ".dat".toList <:+ file := fun file =>
    mem_sortStr.trans mem_wanted
  refine ⟨g1, fun file h1 h2 => ?_, first, i0, x0, n0, f, (mem_wanted.1 hm).1, hs, fun file h1 h2 => hle _ (mem_wanted.2 ⟨h1, h2⟩),
    hf, fun n e => ?_⟩
  · obtain ⟨_, _, _, d, hd, _⟩ := g2 file ((hw _).2 ⟨h1, h2⟩)
    exact ⟨d, hd⟩
  · rw [← lookupKey_mem g1, g3]
    constructor
    · rintro (⟨file, h1, ⟨h2, d, h3, h4⟩, h5⟩ | ⟨h1, _⟩)
      · obtain ⟨hl, hd⟩ := (hw _).1 h1
        obtain ⟨i, x, n', hsf⟩ := hc.2 file hl hd
        obtain rfl := Except.ok.inj (hsf.entry.symm.trans h2)
        exact ⟨file, i, x, d, hl, hsf, fun file' hf' i' x' hs' => h5 file' ((hw _).2 ⟨hf', hs'.suffix⟩) hs'.entry, h3, h4⟩
      · exact absurd h1 (by simp [lookupKey])
    · rintro ⟨file, i, x, d, hl, hsf, hmax, hd, rfl⟩
      refine .inl ⟨file, (hw _).2 ⟨hl, hsf.suffix⟩, ⟨hsf.entry, d, hd, rfl⟩, fun file' hf' hn' => ?_⟩
      obtain ⟨hl', hd'⟩ := (hw _).1 hf'
      obtain ⟨i', x', n', hsf'⟩ := hc.2 file' hl' hd'
      obtain rfl := Except.ok.inj (hsf'.entry.symm.trans hn')
      exact hmax file' hl' i' x' hsf'

end

/-! ## The conversion -/

section
variable {iso : Str → Py Str} {xml : List Str → Option Str} {ji : JPath (List (Str × JSec))} {js : JPath (List (Str × JVal))} {cwd : List Str} {disk disk' : Disk}
  {listing : List Str} {spice : Str} {nexus : Option Str}

/-- The steps of the conversion. -/
theorem convert_with_inv (hc : Conventional listing) (h : convertSpiceWith iso xml ji js cwd disk listing spice nexus = .ok disk') :
    ∃ es first i x n f disk₁, fromSpiceWith iso xml ji js disk.text (resolve cwd spice) listing none = .ok es ∧
      first ∈ listing ∧ ScanFile first i x n ∧ (∀ file ∈ listing, ".dat".toList <:+ file → first ≤ file) ∧
      readSpiceDatafile disk.text (resolve cwd spice ++ ["Datafiles".toList] ++ [first]) = .ok f ∧
      makeFolder disk (resolve cwd (nexusFolder spice nexus (datasetOf f i x))) = .ok disk₁ ∧
      saveAll cwd (nexusFolder spice nexus (datasetOf f i x)) es disk₁ = .ok disk' ∧ (es.map Prod.fst).Nodup ∧
      ∀ n e, (n, e) ∈ es ↔ ∃ file j y d, file ∈ listing ∧ ScanFile file j y n ∧
        (∀ file' ∈ listing, ∀ i' x', ScanFile file' i' x' n → file' ≤ file) ∧
        fileToNxWith iso xml ji js disk.text (resolve cwd spice ++ ["Datafiles".toList]) file = .ok d ∧
        e = setDatasetName d (datasetOf f i x) := by
  rw [convertSpiceWith] at h
  obtain ⟨es, h1, h⟩ := py_bind_eq_ok.1 h
  obtain ⟨e0, h2, h⟩ := py_bind_eq_ok.1 h
  obtain ⟨ds, h3, h⟩ := py_bind_eq_ok.1 h
  obtain ⟨disk₁, h4, h⟩ := py_bind_eq_ok.1 h
  rw [need_eq_ok] at h2
  obtain ⟨g1, _, first, i, x, n, f, g2, g3, g4, g5, g6⟩ := conf_folder hc h1
  obtain ⟨_, _, _, d, _, _, _, _, e⟩ := (g6 e0.1 e0.2).1 (List.mem_of_mem_head? h2)
  rw [e] at h3
  obtain rfl := datasetNameOf_set h3
  exact ⟨es, first, i, x, n, f, disk₁, h1, g2, g3, g4, g5, h4, h, g1, g6⟩

/-- **C107**: a conversion with configuration files that succeeds leaves a file `<scan>.h5` for every scan in the folder it writes to, and nothing else is
changed: the entry is added to the file if there is one. -/
theorem C107_files (hc : Conventional listing) (hname : ∀ file ∈ listing, '/' ∉ file)
    (h : convertSpiceWith iso xml ji js cwd disk listing spice nexus = .ok disk') :
    ∃ es first i x n f, fromSpiceWith iso xml ji js disk.text (resolve cwd spice) listing none = .ok es ∧
      first ∈ listing ∧ ScanFile first i x n ∧ (∀ file ∈ listing, ".dat".toList <:+ file → first ≤ file) ∧
      readSpiceDatafile disk.text (resolve cwd spice ++ ["Datafiles".toList] ++ [first]) = .ok f ∧
      ∀ out, Output cwd spice (datasetOf f i x) nexus out →
        (∀ n d, (n, d) ∈ es → ∃ g, toNexusFile d n ((disk.nexus (out ++ [n ++ ".h5".toList])).getD .new) = .ok g ∧
          disk'.nexus (out ++ [n ++ ".h5".toList]) = some g) ∧
        (∀ q, (∀ n d, (n, d) ∈ es → q ≠ out ++ [n ++ ".h5".toList]) → disk'.nexus q = disk.nexus q) ∧
        (∀ q, q <+: out → disk'.text q = some .folder) ∧ (∀ q t, disk.text q = some t → disk'.text q = some t) ∧
        ∀ q, ¬ q <+: out → disk'.text q = disk.text q := by
  obtain ⟨es, first, i, x, n, f, disk₁, h1, h2, h3, h4, h5, h6, h7, h8, h9⟩ := convert_with_inv hc h
  refine ⟨es, first, i, x, n, f, h1, h2, h3, h4, h5, fun out hout => ?_⟩
  obtain ⟨hb, ho⟩ := output_inv hout (dataset_ne f i x).1 (dataset_ne f i x).2
  have hslash : ∀ e ∈ es, '/' ∉ e.1 := by
    intro e he hs
    obtain ⟨file, j, y, d, hf, hsf, _⟩ := (h9 e.1 e.2).1 he
    exact hname file hf (hsf.sub _ hs)
  obtain ⟨m1, m2, m3, m4⟩ := makeFolder_inv h6
  obtain ⟨g1, g2, g3⟩ := saveAll_inv (P := fun n => out ++ [n ++ ".h5".toList]) es disk₁ disk'
    (fun e he => by rw [h5_path cwd hb (hslash e he), ho]) (paths_nodup h8 out []) h7
  rw [m1] at g2 g3
  rw [ho] at m2 m4
  rw [g1]
  exact ⟨fun n d hd => g2 (n, d) hd, fun q hq => g3 q fun e he => hq e.1 e.2 he, m2, m3, m4⟩

end

theorem datasetNameOf_with {iso : Str → Py Str} {xml : List Str → Option Str} {inst : Option (List (Str × JSec))}
    {samp : Option (List (Str × JVal))} {lists : List Str} {fs : FS} {dir : List Str} {file : Str} {f : SpiceFile} {ds sn : Str} {s : ScanObj}
    (ht : TidyConfig inst samp) (h : LoadedWith iso xml inst samp lists fs dir file f ds sn s) {d : Dict}
    (hd : fileToNxWith iso xml (inst.map some) (samp.map some) fs dir file = .ok d) : datasetNameOf (setDatasetName d ds) = .ok ds := by
  obtain ⟨_, _, p, _, _, _, rfl, _⟩ := file_logs h.1 ht hd
  have h2 : (setDatasetName p.entry ds).get? kAttrs = some (.dict ((strDict [("NX_class".toList, "NXentry".toList), required]).set
      "dataset_name".toList (.leaf (.str ds)))) :=
    get?_setDatasetName_attrs (by rw [← entry_attrs p, entry_get _ (by decide) (by decide)]) ds
  rw [datasetNameOf, h2, need_some, py_bind_ok, Val.index, get?_set, if_pos rfl, need_some, py_bind_ok]

/-- **C107**: a folder of data files with different scan names, each of which can be loaded with the configuration files and shown,
is converted if nothing is in the way, and loading a scan from its NeXus file gives the scan that loading the data file with the
configuration files gives: what they say is kept. -/
theorem C107_scans (iso : Str → Py Str) (xml : List Str → Option Str) (inst : Option (List (Str × JSec))) (samp : Option (List (Str × JVal)))
    (hw : WritableConfig inst samp) (ht : TidyConfig inst samp) (hn : PlainNames inst samp) (cwd : List Str) (disk : Disk)
    (listing : List Str) (spice : Str) (nexus : Option Str) (hc : Conventional listing) (hname : ∀ file ∈ listing, '/' ∉ file)
    (hdata : HasData disk.text (resolve cwd spice))
    (hdiff : ∀ a ∈ listing, ∀ b ∈ listing, ∀ i x j y n, ScanFile a i x n → ScanFile b j y n → a = b)
    (first i x n0 : Str) (f0 : SpiceFile) (hfirst : first ∈ listing) (hfile : ScanFile first i x n0)
    (hmin : ∀ file ∈ listing, ".dat".toList <:+ file → first ≤ file)
    (hf0 : readSpiceDatafile disk.text (resolve cwd spice ++ ["Datafiles".toList] ++ [first]) = .ok f0)
    (out : List Str) (hout : Output cwd spice (datasetOf f0 i x) nexus out)
    (hfree : ∀ q l, q <+: out → disk.text q ≠ some (.file l))
    (hnew : ∀ file ∈ listing, ∀ j y n, ScanFile file j y n → n ≠ "attrs".toList ∧ disk.nexus (out ++ [n ++ ".h5".toList]) = none)
    (hload : ∀ file ∈ listing, ∀ j y n, ScanFile file j y n → ∃ f s, Plottable f ∧
      AxesKept inst samp f ∧ LoadedWith iso xml inst samp ["divergence_x".toList] disk.text (resolve cwd spice ++ ["Datafiles".toList]) file f (datasetOf f0 i x) n s) :
    ∃ disk', convertSpiceWith iso xml (inst.map some) (samp.map some) cwd disk listing spice nexus = .ok disk' ∧
      ∀ file ∈ listing, ∀ j y n, ScanFile file j y n → ∀ f s,
        LoadedWith iso xml inst samp ["divergence_x".toList] disk.text (resolve cwd spice ++ ["Datafiles".toList]) file f (datasetOf f0 i x) n s →
        ∃ g s', disk'.nexus (out ++ [n ++ ".h5".toList]) = some g ∧ scanFromNexus g none = .ok s' ∧ SameConfScan s s' := by
  set dir := resolve cwd spice ++ ["Datafiles".toList] with hdir
  set ds := datasetOf f0 i x with hds
  have hdat : ∀ file ∈ wantedFiles none listing, file ∈ listing ∧ ∃ j y n, ScanFile file j y n := fun file hf => by
    obtain ⟨h1, h2⟩ := mem_wanted.1 hf
    exact ⟨h1, hc.2 file h1 h2⟩
  have hhead := sort_head (mem_wanted.2 ⟨hfirst, hfile.suffix⟩ : first ∈ wantedFiles none listing)
    fun b hb => hmin b (mem_wanted.1 hb).1 (mem_wanted.1 hb).2
  obtain ⟨es, hes⟩ := conf_files_ok (iso := iso) (xml := xml) (ji := inst.map some) (js := samp.map some) (fs := disk.text) (dir := dir) (ds := ds) (sortStr (wantedFiles none listing)) []
    fun file hf => by
      obtain ⟨hl, j, y, n, hs⟩ := hdat file (mem_sortStr.1 hf)
      obtain ⟨f, s, _, _, _, d, hd, _⟩ := hload file hl j y n hs
      exact ⟨n, _, hs.entry, d, hd, rfl⟩
  have hfrom : fromSpiceWith iso xml (inst.map some) (samp.map some) disk.text (resolve cwd spice) listing none = .ok es := by
    rw [fromSpiceWith_eq hdata, spiceDataToNxWith, hhead, need_some, py_bind_ok, hf0, py_bind_ok, hfile.dataset, py_bind_ok, hes]
  obtain ⟨g1, _, first', i', x', n', f', k1, k2, k3, k4, g6⟩ := conf_folder hc hfrom
  obtain rfl : first' = first := le_antisymm (k3 _ hfirst hfile.suffix) (hmin _ k1 k2.suffix)
  obtain rfl := Except.ok.inj (hf0.symm.trans k4)
  obtain ⟨rfl, rfl, rfl⟩ := k2.unique hfile
  rw [← hds] at g6
  have hentry : ∀ file ∈ listing, ∀ j y n, ScanFile file j y n → ∀ d, fileToNxWith iso xml (inst.map some) (samp.map some) disk.text dir file = .ok d →
      (n, setDatasetName d ds) ∈ es := fun file hf j y n hs d hd =>
    (g6 _ _).2 ⟨file, j, y, d, hf, hs, fun file' hf' j' y' hs' => (hdiff _ hf' _ hf _ _ _ _ _ hs' hs).le, hd, rfl⟩
  have hback : ∀ e ∈ es, ∃ file j y d, file ∈ listing ∧ ScanFile file j y e.1 ∧ fileToNxWith iso xml (inst.map some) (samp.map some) disk.text dir file = .ok d ∧
      e.2 = setDatasetName d ds := fun e he => by
    obtain ⟨file, j, y, d, h1, h2, _, h3, h4⟩ := (g6 e.1 e.2).1 he
    exact ⟨file, j, y, d, h1, h2, h3, h4⟩
  have hslash : ∀ e ∈ es, '/' ∉ e.1 := by
    intro e he hs
    obtain ⟨file, j, y, d, hf, hsf, _⟩ := hback e he
    exact hname file hf (hsf.sub _ hs)
  obtain ⟨hb, ho⟩ := output_inv hout (dataset_ne f0 i' x').1 (dataset_ne f0 i' x').2
  obtain ⟨disk₁, hd1⟩ := makeFolder_ok hfree
  obtain ⟨m1, _, _⟩ := makeFolder_inv hd1
  have hpath : ∀ e ∈ es, resolve cwd (nexusFolder spice nexus ds ++ e.1 ++ ".h5".toList) = out ++ [e.1 ++ ".h5".toList] := fun e he => by
    rw [h5_path cwd hb (hslash e he), ho]
  have hold : ∀ e ∈ es, (disk₁.nexus (out ++ [e.1 ++ ".h5".toList])).getD .new = .new := fun e he => by
    obtain ⟨file, j, y, d, hf, hsf, _⟩ := hback e he
    rw [m1, (hnew file hf j y _ hsf).2]; rfl
  obtain ⟨disk', hsave⟩ := saveAll_ok (P := fun n => out ++ [n ++ ".h5".toList]) es disk₁ hpath (paths_nodup g1 out []) fun e he => by
    obtain ⟨file, j, y, d, hf, hsf, hd, he2⟩ := hback e he
    obtain ⟨f, s, ⟨p1, u, v, p2, p3, p4, p5, p6⟩, hk, hl⟩ := hload file hf j y _ hsf
    obtain ⟨d', g, s', hd', hg, _⟩ := C107_round_trip hw ht hn hl (hnew file hf j y _ hsf).1 p1 p2 p3 p4 p5 p6 hk
    obtain rfl := Except.ok.inj (hd'.symm.trans hd)
    exact ⟨g, by rw [hold e he, he2, hg]⟩
  refine ⟨disk', ?_, fun file hf j y n hsf f s hl => ?_⟩
  · obtain ⟨f, s, _, _, hl⟩ := hload _ hfirst _ _ _ hfile
    obtain ⟨_, d, hd, _⟩ := id hl
    have hmem := hentry _ hfirst _ _ _ hfile d hd
    cases es with
    | nil => exact absurd hmem (by simp)
    | cons e0 rest =>
      have hds0 : datasetNameOf e0.2 = .ok ds := by
        obtain ⟨file, j, y, d, hf, hsf, hd, he2⟩ := hback e0 List.mem_cons_self
        obtain ⟨f, s, _, _, hl⟩ := hload file hf j y _ hsf
        rw [he2]
        exact datasetNameOf_with ht hl hd
      rw [convertSpiceWith, hfrom, py_bind_ok, List.head?_cons, need_some, py_bind_ok, hds0, py_bind_ok, ho, hd1, py_bind_ok, hsave]
  · obtain ⟨f2, s2, ⟨p1, u, v, p2, p3, p4, p5, p6⟩, hk, hl2⟩ := hload file hf j y n hsf
    obtain rfl := Except.ok.inj (hl2.1.symm.trans hl.1)
    obtain ⟨d, g, s', hd, hg, hs', q⟩ := C107_round_trip hw ht hn hl (hnew file hf j y n hsf).1
      p1 p2 p3 p4 p5 p6 hk
    have hmem := hentry file hf j y n hsf d hd
    obtain ⟨_, w, _⟩ := saveAll_inv (P := fun n => out ++ [n ++ ".h5".toList]) es disk₁ disk' hpath (paths_nodup g1 out []) hsave
    obtain ⟨g', w1, w2⟩ := w _ hmem
    rw [hold _ hmem] at w1
    obtain rfl := Except.ok.inj (hg.symm.trans w1)
    exact ⟨g, s', w2, hs', q⟩

/-- **C107.** Without configuration files this is the conversion of C86. -/
theorem C107_without (iso : Str → Py Str) (xml : List Str → Option Str) (cwd : List Str) (disk : Disk) (listing : List Str)
    (spice : Str) (nexus : Option Str) :
    convertSpiceWith iso xml none none cwd disk listing spice nexus = convertSpice iso xml cwd disk listing spice nexus := by
  rw [convertSpiceWith, convertSpice, C104_without]

/-- **C107.** If there is no file at one of the paths, nothing is converted. -/
theorem C107_no_file (iso : Str → Py Str) (xml : List Str → Option Str) (ji : JPath (List (Str × JSec))) (js : JPath (List (Str × JVal)))
    (hno : ji = some none ∨ js = some none) (cwd : List Str) (disk disk' : Disk) (listing : List Str) (spice : Str) (nexus : Option Str)
    (hc : Conventional listing) : convertSpiceWith iso xml ji js cwd disk listing spice nexus ≠ .ok disk' := by
  intro h
  obtain ⟨es, first, i, x, n, f, disk₁, h1, h2, h3, _⟩ := convert_with_inv hc h
  obtain ⟨_, g2, _⟩ := conf_folder hc h1
  obtain ⟨d, hd⟩ := g2 first h2 h3.suffix
  rw [C104_no_file _ _ _ _ hno] at hd
  exact absurd hd (by simp)

end Tavi
