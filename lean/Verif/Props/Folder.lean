import Verif.Props.Measurement
import Verif.Props.Filter

/-!
# Loading a folder (C78) and one scan of it (C79)
-/

namespace Tavi

open Spec

/-! ## What the statements refer to -/

/-- The file is called as SPICE does: instrument, experiment and scan. -/
structure Spec.ScanFile (file instr exp scan : Str) : Prop where
  eq : file = instr ++ "_".toList ++ exp ++ "_".toList ++ scan ++ ".dat".toList
  instr_ : '_' ∉ instr
  exp_ : '_' ∉ exp
  scan_ : '_' ∉ scan
  dot : '.' ∉ scan

/-- The data files of a folder are called as SPICE does, and no name occurs twice. -/
def Spec.Conventional (listing : List Str) : Prop :=
  listing.Nodup ∧ ∀ file ∈ listing, ".dat".toList <:+ file → ∃ i x n, ScanFile file i x n

/-- The name of a data set: proposal, instrument and experiment. -/
def Spec.datasetOf (f : SpiceFile) (instr exp : Str) : Str :=
  "IPTS".toList ++ (header f "proposal".toList).getD "UNKNOWN".toList ++ "_".toList ++ instr ++ "_".toList ++ exp

/-- The folder and its `Datafiles` are there. -/
def Spec.HasData (fs : FS) (folder : List Str) : Prop :=
  fs folder = some .folder ∧ fs (folder ++ ["Datafiles".toList]) = some .folder

/-! ## Names -/

theorem Spec.ScanFile.split {file i x n : Str} (h : ScanFile file i x n) : splitChar '_' file = [i, x, n ++ ".dat".toList] := by
  have e : file = joinStr ['_'] [i, x, n ++ ".dat".toList] := by
    rw [h.eq, joinStr, joinStr, joinStr]
    show i ++ ['_'] ++ x ++ ['_'] ++ n ++ ".dat".toList = _
    simp only [List.append_assoc]
  rw [e]
  refine splitChar_join (by simp) fun p hp => ?_
  simp only [List.mem_cons, List.not_mem_nil, or_false] at hp
  rcases hp with rfl | rfl | rfl
  · exact h.instr_
  · exact h.exp_
  · rw [List.mem_append]
    rintro (hm | hm)
    · exact h.scan_ hm
    · exact absurd hm (by decide)

theorem Spec.ScanFile.entry {file i x n : Str} (h : ScanFile file i x n) : entryName file = .ok n := by
  rw [entryName, h.split]
  show (Except.ok (n ++ ".dat".toList)).map _ = _
  show Except.ok ((splitChar '.' (n ++ '.' :: "dat".toList)).headD []) = _
  rw [splitChar_cons h.dot]; rfl

theorem Spec.ScanFile.dataset {file i x n : Str} (h : ScanFile file i x n) (f : SpiceFile) :
    datasetName f.metadata file = .ok (datasetOf f i x) := by
  rw [datasetName, h.split]; rfl

theorem Spec.ScanFile.suffix {file i x n : Str} (h : ScanFile file i x n) : ".dat".toList <:+ file := ⟨_, h.eq.symm⟩

theorem Spec.ScanFile.unique {file i x n i' x' n' : Str} (h : ScanFile file i x n) (h' : ScanFile file i' x' n') :
    i = i' ∧ x = x' ∧ n = n' := by
  have e := h.split.symm.trans h'.split
  simp only [List.cons.injEq, and_true] at e
  exact ⟨e.1, e.2.1, List.append_cancel_right e.2.2⟩

/-! ## The loop over the files -/

section
variable {iso : Str → Py Str} {xml : List Str → Option Str} {fs : FS} {dir : List Str} {ds : Str}

/-- The entry made from a file. -/
def FileEntry (iso : Str → Py Str) (xml : List Str → Option Str) (fs : FS) (dir : List Str) (ds file n : Str) (e : Dict) : Prop :=
  entryName file = .ok n ∧ ∃ d, fileToNx iso xml fs dir file = .ok d ∧ e = setDatasetName d ds

theorem files_inv : ∀ (L : List Str) (acc es : List (Str × Dict)), L.Pairwise (· < ·) → (acc.map Prod.fst).Nodup →
    filesToNx iso xml fs dir ds L acc = .ok es →
    (es.map Prod.fst).Nodup ∧ (∀ file ∈ L, ∃ n e, FileEntry iso xml fs dir ds file n e) ∧
    ∀ n e, lookupKey n es = some e ↔
      (∃ file ∈ L, FileEntry iso xml fs dir ds file n e ∧ ∀ file' ∈ L, entryName file' = .ok n → file' ≤ file) ∨
      (lookupKey n acc = some e ∧ ∀ file ∈ L, entryName file ≠ .ok n)
  | [], acc, es, _, hacc, h => by
    obtain rfl := Except.ok.inj h
    exact ⟨hacc, by simp, by simp⟩
  | f :: rest, acc, es, hL, hacc, h => by
    rw [List.pairwise_cons] at hL
    rw [filesToNx] at h
    obtain ⟨n0, h1, h⟩ := py_bind_eq_ok.1 h
    obtain ⟨d0, h2, h⟩ := py_bind_eq_ok.1 h
    obtain ⟨g1, g2, g3⟩ := files_inv rest _ es hL.2 (nodup_assocSet hacc n0 _) h
    refine ⟨g1, ?_, fun n e => ?_⟩
    · rintro file (_ | ⟨_, hf⟩)
      · exact ⟨n0, _, h1, d0, h2, rfl⟩
      · exact g2 file hf
    · rw [g3, lookupKey_assocSet]
      constructor
      · rintro (⟨file, hf, he, hm⟩ | ⟨hl, hno⟩)
        · refine .inl ⟨file, List.mem_cons_of_mem _ hf, he, ?_⟩
          rintro file' (_ | ⟨_, hf'⟩) hn
          · exact le_of_lt (hL.1 _ hf)
          · exact hm _ hf' hn
        · by_cases hn : n = n0
          · rw [if_pos hn] at hl
            subst hn
            refine .inl ⟨f, List.mem_cons_self, ⟨h1, d0, h2, (Option.some.inj hl).symm⟩, ?_⟩
            rintro file' (_ | ⟨_, hf'⟩) hn'
            · exact le_rfl
            · exact absurd hn' (hno _ hf')
          · rw [if_neg hn] at hl
            refine .inr ⟨hl, ?_⟩
            rintro file (_ | ⟨_, hf⟩) hn'
            · exact hn (Except.ok.inj (hn'.symm.trans h1))
            · exact hno _ hf hn'
      · rintro (⟨file, hf, he, hm⟩ | ⟨hl, hno⟩)
        · rcases List.mem_cons.1 hf with rfl | hf
          · obtain ⟨e1, d, e2, rfl⟩ := he
            obtain rfl := Except.ok.inj (e1.symm.trans h1)
            obtain rfl := Except.ok.inj (e2.symm.trans h2)
            refine .inr ⟨if_pos rfl, fun file' hf' hn' => ?_⟩
            exact absurd (hm _ (List.mem_cons_of_mem _ hf') hn') (not_le_of_gt (hL.1 _ hf'))
          · exact .inl ⟨file, hf, he, fun file' hf' => hm _ (List.mem_cons_of_mem _ hf')⟩
        · refine .inr ⟨?_, fun file hf => hno _ (List.mem_cons_of_mem _ hf)⟩
          rw [if_neg]
          · exact hl
          · rintro rfl
            exact hno _ List.mem_cons_self h1

/-- All the files can be loaded. -/
theorem files_ok : ∀ (L : List Str) (acc : List (Str × Dict)),
    (∀ file ∈ L, ∃ n e, FileEntry iso xml fs dir ds file n e) → ∃ es, filesToNx iso xml fs dir ds L acc = .ok es
  | [], acc, _ => ⟨acc, rfl⟩
  | f :: rest, acc, h => by
    obtain ⟨n, e, h1, d, h2, _⟩ := h f List.mem_cons_self
    obtain ⟨es, hes⟩ := files_ok rest (assocSet acc n (setDatasetName d ds)) fun file hf => h file (List.mem_cons_of_mem _ hf)
    exact ⟨es, by rw [filesToNx, h1, py_bind_ok, h2, py_bind_ok, hes]⟩

theorem assocSet_new {β : Type} {l : List (Str × β)} {k : Str} (h : k ∉ l.map Prod.fst) (v : β) : assocSet l k v = l ++ [(k, v)] := by
  induction l with
  | nil => rfl
  | cons kv l ih =>
    rw [List.map_cons, List.mem_cons, not_or] at h
    rw [assocSet, if_neg (Ne.symm h.1), ih h.2]; rfl

theorem files_append : ∀ (L : List Str) (acc es : List (Str × Dict)), L.Pairwise (fun a b => entryName a ≠ entryName b) →
    (∀ file ∈ L, ∀ n ∈ acc.map Prod.fst, entryName file ≠ .ok n) → filesToNx iso xml fs dir ds L acc = .ok es →
    ∃ ps, es = acc ++ ps ∧ List.Forall₂ (fun file (p : Str × Dict) => FileEntry iso xml fs dir ds file p.1 p.2) L ps
  | [], acc, es, _, _, h => ⟨[], by rw [List.append_nil]; exact (Except.ok.inj h).symm, .nil⟩
  | f :: rest, acc, es, hL, hacc, h => by
    rw [List.pairwise_cons] at hL
    rw [filesToNx] at h
    obtain ⟨n0, h1, h⟩ := py_bind_eq_ok.1 h
    obtain ⟨d0, h2, h⟩ := py_bind_eq_ok.1 h
    have hnew : n0 ∉ acc.map Prod.fst := fun hm => hacc f List.mem_cons_self n0 hm h1
    rw [assocSet_new hnew] at h
    obtain ⟨ps, rfl, hps⟩ := files_append rest _ es hL.2 (by
      intro file hf n hn
      rw [List.map_append, List.mem_append] at hn
      rcases hn with hn | hn
      · exact hacc file (List.mem_cons_of_mem _ hf) n hn
      · obtain rfl : n = n0 := by simpa using hn
        intro e
        exact hL.1 file hf (h1.trans e.symm)) h
    exact ⟨(n0, setDatasetName d0 ds) :: ps, by rw [List.append_assoc]; rfl, .cons ⟨h1, d0, h2, rfl⟩ hps⟩

end

/-! ## The folder -/

section
variable {iso : Str → Py Str} {xml : List Str → Option Str} {fs : FS} {folder listing : List Str} {sn : Option ℕ}
  {es : List (Str × Dict)}

theorem fromSpice_eq (h : HasData fs folder) : fromSpice iso xml fs folder listing sn = spiceDataToNx iso xml fs folder listing sn := by
  rw [fromSpice, if_neg (by rw [h.1]; simp), if_neg (by rw [isFolder, h.1]; simp), if_neg (by rw [isFolder, h.2]; simp)]

theorem fromSpice_inv (h : fromSpice iso xml fs folder listing sn = .ok es) : HasData fs folder := by
  have key : ∀ p, ¬ isFolder fs p = false → fs p = some .folder := by
    intro p hp
    unfold isFolder at hp
    split at hp
    · assumption
    · exact absurd rfl hp
  unfold fromSpice at h
  split at h
  · exact absurd h (by simp)
  · split at h
    · exact absurd h (by simp)
    · split at h
      · exact absurd h (by simp)
      · rename_i h1 h2
        exact ⟨key _ h1, key _ h2⟩

/-- The ending of the files that are read. -/
def wantedEnd : Option ℕ → Str
  | none => ".dat".toList
  | some n => scanName n ++ ".dat".toList

theorem mem_wanted {file : Str} : file ∈ wantedFiles sn listing ↔ file ∈ listing ∧ wantedEnd sn <:+ file := by
  unfold wantedFiles
  rw [List.mem_filter, List.isSuffixOf_iff_suffix]
  cases sn <;> rfl

theorem wanted_dat {file : Str} (h : wantedEnd sn <:+ file) : ".dat".toList <:+ file := by
  cases sn with
  | none => exact h
  | some n => exact (List.suffix_append _ _).trans h

theorem spice_inv (hc : Conventional listing) (h : fromSpice iso xml fs folder listing sn = .ok es) :
    ∃ first i x n f, first ∈ wantedFiles sn listing ∧ (∀ file ∈ wantedFiles sn listing, first ≤ file) ∧ ScanFile first i x n ∧
      readSpiceDatafile fs (folder ++ ["Datafiles".toList] ++ [first]) = .ok f ∧
      filesToNx iso xml fs (folder ++ ["Datafiles".toList]) (datasetOf f i x) (sortStr (wantedFiles sn listing)) [] = .ok es := by
  rw [fromSpice_eq (fromSpice_inv h), spiceDataToNx] at h
  obtain ⟨first, h1, h⟩ := py_bind_eq_ok.1 h
  obtain ⟨f, h2, h⟩ := py_bind_eq_ok.1 h
  obtain ⟨ds, h3, h⟩ := py_bind_eq_ok.1 h
  rw [need_eq_ok] at h1
  have hm : first ∈ wantedFiles sn listing := mem_sortStr.1 (List.mem_of_mem_head? h1)
  obtain ⟨i, x, n, hs⟩ := hc.2 first (mem_wanted.1 hm).1 (wanted_dat (mem_wanted.1 hm).2)
  rw [hs.dataset] at h3
  obtain rfl := Except.ok.inj h3
  refine ⟨first, i, x, n, f, hm, fun file hf => ?_, hs, h2, h⟩
  have hsorted := sortStr_sorted (wantedFiles sn listing)
  have hf' := mem_sortStr.2 hf
  cases hl : sortStr (wantedFiles sn listing) with
  | nil => rw [hl] at h1; exact absurd h1 (by simp)
  | cons a l =>
    rw [hl] at h1 hsorted hf'
    obtain rfl : a = first := by simpa using h1
    rcases List.mem_cons.1 hf' with rfl | hf'
    · exact le_rfl
    · exact (List.pairwise_cons.1 hsorted).1 _ hf'

theorem wanted_strict (hc : Conventional listing) : (sortStr (wantedFiles sn listing)).Pairwise (· < ·) :=
  sortStr_strict (hc.1.filter _)

end

/-- **C78**: a folder that is loaded gives, for every scan name, the entry of the (last) file of that name, and all entries bear
the name of the data set of the first file; every data file could be loaded. -/
theorem C78_folder (iso : Str → Py Str) (xml : List Str → Option Str) (fs : FS) (folder listing : List Str)
    (hc : Conventional listing) (es : List (Str × Dict)) (h : fromSpice iso xml fs folder listing none = .ok es) :
    (es.map Prod.fst).Nodup ∧
    (∀ file ∈ listing, ".dat".toList <:+ file → ∃ d, fileToNx iso xml fs (folder ++ ["Datafiles".toList]) file = .ok d) ∧
    ∃ first i0 x0 n0 f, first ∈ listing ∧ ScanFile first i0 x0 n0 ∧
      (∀ file ∈ listing, ".dat".toList <:+ file → first ≤ file) ∧
      readSpiceDatafile fs (folder ++ ["Datafiles".toList] ++ [first]) = .ok f ∧
      ∀ n e, (n, e) ∈ es ↔ ∃ file i x d, file ∈ listing ∧ ScanFile file i x n ∧
        (∀ file' ∈ listing, ∀ i' x', ScanFile file' i' x' n → file' ≤ file) ∧
        fileToNx iso xml fs (folder ++ ["Datafiles".toList]) file = .ok d ∧ e = setDatasetName d (datasetOf f i0 x0) := by
  obtain ⟨first, i0, x0, n0, f, hm, hle, hs, hf, hfiles⟩ := spice_inv hc h
  obtain ⟨g1, g2, g3⟩ := files_inv _ _ _ (wanted_strict hc) (by simp) hfiles
  have hw : ∀ file, file ∈ sortStr (wantedFiles none listing) ↔ file ∈ listing ∧ ".dat".toList <:+ file := fun file =>
    mem_sortStr.trans mem_wanted
  refine ⟨g1, fun file h1 h2 => ?_, first, i0, x0, n0, f, (mem_wanted.1 hm).1, hs, fun file h1 h2 => hle _ (mem_wanted.2 ⟨h1, h2⟩),
    hf, fun n e => ?_⟩
  · obtain ⟨_, _, _, d, hd, _⟩ := g2 file ((hw _).2 ⟨h1, h2⟩)
    exact ⟨d, hd⟩
  · rw [← lookupKey_mem g1, g3]
    constructor
    · rintro (⟨file, h1, ⟨h2, d, h3, h4⟩, h5⟩ | ⟨h1, _⟩)
      · obtain ⟨hl, hd⟩ := (hw _).1 h1
        obtain ⟨i, x, n', hsf⟩ := hc.2 file hl hd
        obtain rfl := Except.ok.inj (hsf.entry.symm.trans h2)
        exact ⟨file, i, x, d, hl, hsf, fun file' hf' i' x' hs' => h5 file' ((hw _).2 ⟨hf', hs'.suffix⟩) hs'.entry, h3, h4⟩
      · exact absurd h1 (by simp [lookupKey])
    · rintro ⟨file, i, x, d, hl, hsf, hmax, hd, rfl⟩
      refine .inl ⟨file, (hw _).2 ⟨hl, hsf.suffix⟩, ⟨hsf.entry, d, hd, rfl⟩, fun file' hf' hn' => ?_⟩
      obtain ⟨hl', hd'⟩ := (hw _).1 hf'
      obtain ⟨i', x', n', hsf'⟩ := hc.2 file' hl' hd'
      obtain rfl := Except.ok.inj (hsf'.entry.symm.trans hn')
      exact hmax file' hl' i' x' hsf'

/-- **C78** (partial): if the scan names differ, each data file gives one entry, in the order of the file names.
Missing: files with the same scan name, see `C78_scan_lost`. -/
theorem C78_one_each_partial (iso : Str → Py Str) (xml : List Str → Option Str) (fs : FS) (folder listing : List Str)
    (hc : Conventional listing) (es : List (Str × Dict)) (h : fromSpice iso xml fs folder listing none = .ok es)
    (hdiff : ∀ a ∈ listing, ∀ b ∈ listing, ∀ i x j y n, ScanFile a i x n → ScanFile b j y n → a = b) :
    ∃ files ds, files.Perm (listing.filter fun s => ".dat".toList.isSuffixOf s) ∧ files.Pairwise (· < ·) ∧
      List.Forall₂ (fun file (e : Str × Dict) => ∃ i x d, ScanFile file i x e.1 ∧
        fileToNx iso xml fs (folder ++ ["Datafiles".toList]) file = .ok d ∧ e.2 = setDatasetName d ds) files es := by
  obtain ⟨first, i0, x0, n0, f, hm, hle, hs, hf, hfiles⟩ := spice_inv hc h
  have hw : ∀ file, file ∈ sortStr (wantedFiles none listing) → ∃ i x n, ScanFile file i x n := fun file hf => by
    obtain ⟨h1, h2⟩ := mem_wanted.1 (mem_sortStr.1 hf)
    exact hc.2 file h1 h2
  obtain ⟨ps, rfl, hps⟩ := files_append _ _ _ (by
    refine (wanted_strict hc).imp_of_mem fun {a b} ha hb hab e => ?_
    obtain ⟨i, x, n, hsa⟩ := hw a ha
    obtain ⟨j, y, n', hsb⟩ := hw b hb
    rw [hsa.entry, hsb.entry] at e
    obtain rfl := Except.ok.inj e
    exact absurd (hdiff a (mem_wanted.1 (mem_sortStr.1 ha)).1 b (mem_wanted.1 (mem_sortStr.1 hb)).1 i x j y n hsa hsb) (ne_of_lt hab))
    (by simp) hfiles
  refine ⟨sortStr (wantedFiles none listing), datasetOf f i0 x0, sortStr_perm _, wanted_strict hc, ?_⟩
  have hmem := fun file hf => hw file hf
  generalize sortStr (wantedFiles none listing) = L at hps hmem
  clear hfiles h
  induction hps with
  | nil => exact .nil
  | @cons a b L ps hab _ ih =>
    refine .cons ?_ (ih fun file hf => hmem file (List.mem_cons_of_mem _ hf))
    obtain ⟨h1, d, h2, h3⟩ := hab
    obtain ⟨i, x, n, hsf⟩ := hmem a List.mem_cons_self
    obtain rfl := Except.ok.inj (hsf.entry.symm.trans h1)
    exact ⟨i, x, d, hsf, h2, h3⟩

/-- **C78**, the code disagrees: of two files with the same scan name the first is lost. -/
theorem C78_scan_lost (iso : Str → Py Str) (xml : List Str → Option Str) (fs : FS) (folder listing : List Str)
    (hc : Conventional listing) (es : List (Str × Dict)) (h : fromSpice iso xml fs folder listing none = .ok es)
    (a b i x j y n : Str) (ha : a ∈ listing) (hb : b ∈ listing) (hsa : ScanFile a i x n) (hsb : ScanFile b j y n) (hab : a ≠ b) :
    es.length < (listing.filter fun s => ".dat".toList.isSuffixOf s).length := by
  obtain ⟨g1, _, first, i0, x0, n0, f, _, _, _, _, hes⟩ := C78_folder iso xml fs folder listing hc es h
  have hmap : ∀ m ∈ es.map Prod.fst, Except.ok m ∈ (listing.filter fun s => ".dat".toList.isSuffixOf s).map entryName := by
    intro m hm
    obtain ⟨⟨m', e⟩, he, rfl⟩ := List.mem_map.1 hm
    obtain ⟨file, i, x, d, hl, hs, _⟩ := (hes _ _).1 he
    exact List.mem_map.2 ⟨file, List.mem_filter.2 ⟨hl, List.isSuffixOf_iff_suffix.2 hs.suffix⟩, hs.entry⟩
  set D := listing.filter fun s => ".dat".toList.isSuffixOf s with hD
  have haD : a ∈ D := List.mem_filter.2 ⟨ha, List.isSuffixOf_iff_suffix.2 hsa.suffix⟩
  have hbD : b ∈ D := List.mem_filter.2 ⟨hb, List.isSuffixOf_iff_suffix.2 hsb.suffix⟩
  have hsub : (es.map fun e => (Except.ok e.1 : Py Str)) ⊆ (D.erase a).map entryName := by
    intro m hm
    obtain ⟨e, he, rfl⟩ := List.mem_map.1 hm
    obtain ⟨file, hf, hfe⟩ := List.mem_map.1 (hmap e.1 (List.mem_map_of_mem he))
    by_cases hfa : file = a
    · refine List.mem_map.2 ⟨b, (List.mem_erase_of_ne (Ne.symm hab)).2 hbD, ?_⟩
      rw [hsb.entry, ← hsa.entry, ← hfa, hfe]
    · exact List.mem_map.2 ⟨file, (List.mem_erase_of_ne hfa).2 hf, hfe⟩
  have hnd : (es.map fun e => (Except.ok e.1 : Py Str)).Nodup := by
    rw [show (es.map fun e => (Except.ok e.1 : Py Str)) = (es.map Prod.fst).map Except.ok by rw [List.map_map]; rfl]
    exact g1.map fun _ _ e => Except.ok.inj e
  have := (hnd.subperm hsub).length_le
  rw [List.length_map, List.length_map, List.length_erase_of_mem haD] at this
  have : 0 < D.length := List.length_pos_of_mem haD
  omega

/-- **C78**: what is not a folder with data is refused. -/
theorem C78_refused (iso : Str → Py Str) (xml : List Str → Option Str) (fs : FS) (folder listing : List Str) (sn : Option ℕ) :
    (fs folder = none → fromSpice iso xml fs folder listing sn = .error .fileNotFound) ∧
    (∀ l, fs folder = some (.file l) → fromSpice iso xml fs folder listing sn = .error .notADirectory) ∧
    (fs folder = some .folder → fs (folder ++ ["Datafiles".toList]) ≠ some .folder →
      fromSpice iso xml fs folder listing sn = .error .fileNotFound) := by
  refine ⟨fun h => ?_, fun l h => ?_, fun h h' => ?_⟩
  · rw [fromSpice, if_pos (by rw [h]; rfl)]
  · rw [fromSpice, if_neg (by rw [h]; simp), if_pos (by rw [isFolder, h])]
  · rw [fromSpice, if_neg (by rw [h]; simp), if_neg (by rw [isFolder, h]; simp), if_pos]
    unfold isFolder
    split
    · exact absurd (by assumption) h'
    · rfl

/-! ## C79: one scan -/

theorem filter_only {l : List Str} {p : Str → Bool} {a : Str} (hn : l.Nodup) (ha : a ∈ l) (hp : p a = true)
    (h : ∀ b ∈ l, p b = true → b = a) : l.filter p = [a] := by
  have hnd := hn.filter p
  have hm : a ∈ l.filter p := List.mem_filter.2 ⟨ha, hp⟩
  have hall : ∀ b ∈ l.filter p, b = a := fun b hb => h b (List.mem_filter.1 hb).1 (List.mem_filter.1 hb).2
  cases hl : l.filter p with
  | nil => rw [hl] at hm; exact absurd hm (by simp)
  | cons b t =>
    rw [hl] at hnd hall
    obtain rfl := hall b List.mem_cons_self
    cases t with
    | nil => rfl
    | cons c t =>
      obtain rfl := hall c (by simp)
      exact absurd hnd (by simp)

/-- **C79**: a scan asked for by its number is the one of the file with that number, if there is one such file. -/
theorem C79_scan (iso : Str → Py Str) (xml : List Str → Option Str) (fs : FS) (folder listing : List Str) (n : ℕ)
    (hdata : HasData fs folder) (hn : listing.Nodup) (file i x : Str) (hfile : file ∈ listing) (hs : ScanFile file i x (scanName n))
    (honly : ∀ b ∈ listing, scanName n ++ ".dat".toList <:+ b → b = file) (s : ScanObj) :
    scanFromSpice iso xml fs folder listing n = .ok s ↔
      ∃ f, Loaded iso xml fs (folder ++ ["Datafiles".toList]) file f (datasetOf f i x) (scanName n) s := by
  have hw : wantedFiles (some n) listing = [file] := by
    unfold wantedFiles
    refine filter_only hn hfile ?_ fun b hb hp => honly b hb (List.isSuffixOf_iff_suffix.1 hp)
    refine List.isSuffixOf_iff_suffix.2 ⟨i ++ "_".toList ++ x ++ "_".toList, ?_⟩
    rw [hs.eq]; simp only [List.append_assoc]
  have hsort : sortStr (wantedFiles (some n) listing) = [file] := by rw [hw]; rfl
  rw [scanFromSpice, fromSpice_eq hdata, spiceDataToNx, hsort]
  show ((Except.ok file >>= _) >>= _) = _ ↔ _
  rw [py_bind_ok]
  constructor
  · intro h
    obtain ⟨es, h, h4⟩ := py_bind_eq_ok.1 h
    obtain ⟨f, h1, h⟩ := py_bind_eq_ok.1 h
    rw [hs.dataset, py_bind_ok, filesToNx, hs.entry, py_bind_ok] at h
    obtain ⟨d, h2, h⟩ := py_bind_eq_ok.1 h
    obtain rfl := Except.ok.inj h
    exact ⟨f, h1, d, h2, h4⟩
  · rintro ⟨f, h1, d, h2, h4⟩
    rw [h1, py_bind_ok, hs.dataset, py_bind_ok, filesToNx, hs.entry, py_bind_ok, h2, py_bind_ok]
    exact h4

/-- **C79** (partial): the data of a scan asked for by its number are the columns of the file with that number.
Missing: as for C76. -/
theorem C79_data_partial (iso : Str → Py Str) (xml : List Str → Option Str) (fs : FS) (folder listing : List Str) (m : ℕ)
    (hdata : HasData fs folder) (hnd : listing.Nodup) (file i x : Str) (hfile : file ∈ listing) (hs : ScanFile file i x (scanName m))
    (honly : ∀ b ∈ listing, scanName m ++ ".dat".toList <:+ b → b = file) (s : ScanObj)
    (h : scanFromSpice iso xml fs folder listing m = .ok s) :
    s.name = scanName m ∧ ∃ f, readSpiceDatafile fs (folder ++ ["Datafiles".toList] ++ [file]) = .ok f ∧
      ∀ n, Detectors ((columns f).map Prod.fst) n → ∀ c nm int, KnownColumn (Polarized f) n c nm int → ∀ qs : List (Option ℚ),
        lookupKey c (columns f) = some qs →
        (∀ k, nm = withNumber "detector".toList k → "detector".toList ∉ (columns f).map Prod.fst) →
        lookupKey nm s.data = some (some (.leaf (.arr (shown int qs)))) := by
  obtain ⟨f, hl⟩ := (C79_scan iso xml fs folder listing m hdata hnd file i x hfile hs honly s).1 h
  obtain ⟨logs, p, s', _, _, _, hd, hs', _, hname, hdat, _⟩ := loaded_inv hl
  refine ⟨hname, f, hl.1, fun n hn c nm int hk qs hq hdet => ?_⟩
  rw [hdat]
  exact C76_data_partial iso xml fs _ file f hl.1 p.entry hd n hn c nm int hk qs hq hdet _ (by simp) _ s' hs'

/-- **C79**, the code disagrees: with several files of that number (say, of two experiments) the last one is taken without notice,
under the data set of the first. -/
theorem C79_ambiguous (iso : Str → Py Str) (xml : List Str → Option Str) (fs : FS) (folder listing : List Str) (n : ℕ)
    (hn : listing.Nodup)
    (hall : ∀ a ∈ listing, scanName n ++ ".dat".toList <:+ a → ∃ i x, ScanFile a i x (scanName n)) (s : ScanObj)
    (h : scanFromSpice iso xml fs folder listing n = .ok s) :
    ∃ first last i x f f0, first ∈ listing ∧ last ∈ listing ∧ ScanFile first i x (scanName n) ∧
      (∀ a ∈ listing, scanName n ++ ".dat".toList <:+ a → first ≤ a ∧ a ≤ last) ∧
      readSpiceDatafile fs (folder ++ ["Datafiles".toList] ++ [first]) = .ok f0 ∧
      Loaded iso xml fs (folder ++ ["Datafiles".toList]) last f (datasetOf f0 i x) (scanName n) s := by
  have hc : Conventional (wantedFiles (some n) listing) := by
    refine ⟨hn.filter _, fun file hf _ => ?_⟩
    obtain ⟨h1, h2⟩ := mem_wanted.1 hf
    obtain ⟨i, x, hs⟩ := hall file h1 h2
    exact ⟨i, x, _, hs⟩
  have hidem : wantedFiles (some n) (wantedFiles (some n) listing) = wantedFiles (some n) listing := by
    unfold wantedFiles; rw [List.filter_filter]; simp
  rw [scanFromSpice] at h
  obtain ⟨es, h, h4⟩ := py_bind_eq_ok.1 h
  have h' : fromSpice iso xml fs folder (wantedFiles (some n) listing) (some n) = .ok es := by
    rw [fromSpice_eq (fromSpice_inv h), spiceDataToNx, hidem]
    rw [fromSpice_eq (fromSpice_inv h), spiceDataToNx] at h
    exact h
  obtain ⟨first, i, x, n', f0, hm, hle, hs, hf, hfiles⟩ := spice_inv hc h'
  rw [hidem] at hm hle hfiles
  obtain ⟨g1, g2, g3⟩ := files_inv (sortStr (wantedFiles (some n) listing)) _ _ (sortStr_strict (hn.filter _)) (by simp) hfiles
  obtain ⟨i', x', hs'⟩ := hall first (mem_wanted.1 hm).1 (mem_wanted.1 hm).2
  obtain ⟨rfl, rfl, rfl⟩ := hs.unique hs'
  have h5 : ∃ e, es = [e] ∧ newScan ["divergence_x".toList] e.1 e.2 = .ok s := by
    rcases es with _ | ⟨e, _ | ⟨e', t⟩⟩
    · exact absurd h4 (by simp)
    · exact ⟨e, rfl, h4⟩
    · exact absurd h4 (by simp)
  obtain ⟨⟨k, e⟩, rfl, h5⟩ := h5
  obtain ⟨last, hl1, ⟨hl2, d, hl3, rfl⟩, hmax⟩ | ⟨hno, _⟩ := (g3 k e).1 (by simp [lookupKey])
  · obtain ⟨hm1, hm2⟩ := mem_wanted.1 (mem_sortStr.1 hl1)
    obtain ⟨j, y, hsl⟩ := hall last hm1 hm2
    obtain rfl := Except.ok.inj (hl2.symm.trans hsl.entry)
    have hread : ∃ f, readSpiceDatafile fs (folder ++ ["Datafiles".toList] ++ [last]) = .ok f := by
      rw [fileToNx] at hl3
      obtain ⟨logs, hl3, _⟩ := py_bind_eq_ok.1 hl3
      rw [createSpicelogs] at hl3
      obtain ⟨f, hl3, _⟩ := py_bind_eq_ok.1 hl3
      exact ⟨f, hl3⟩
    obtain ⟨f, hf'⟩ := hread
    refine ⟨first, last, i, x, f, f0, (mem_wanted.1 hm).1, hm1, hs, fun a ha1 ha2 => ⟨hle a (mem_wanted.2 ⟨ha1, ha2⟩), ?_⟩, hf,
      hf', d, hl3, h5⟩
    obtain ⟨j', y', hsa⟩ := hall a ha1 ha2
    exact hmax a (mem_sortStr.2 (mem_wanted.2 ⟨ha1, ha2⟩)) hsa.entry
  · exact absurd hno (by simp [lookupKey])

/-- **C79**: a scan that is not there is not found. -/
theorem C79_missing (iso : Str → Py Str) (xml : List Str → Option Str) (fs : FS) (folder listing : List Str) (n : ℕ)
    (hdata : HasData fs folder) (hno : ∀ b ∈ listing, ¬ scanName n ++ ".dat".toList <:+ b) :
    scanFromSpice iso xml fs folder listing n = .error .indexError := by
  have hw : wantedFiles (some n) listing = [] := by
    rw [List.eq_nil_iff_forall_not_mem]
    intro a ha
    exact hno a (mem_wanted.1 ha).1 (mem_wanted.1 ha).2
  rw [scanFromSpice, fromSpice_eq hdata, spiceDataToNx, hw]
  rfl

end Tavi
