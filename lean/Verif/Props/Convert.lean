import Verif.Model.Convert
import Verif.Props.ScanFile
import Verif.Props.Folder

/-!
# Converting a folder of data files to NeXus files (C86)
-/

namespace Tavi

open Spec

/-! ## What the statements refer to -/

/-- The text of a folder to which a name can be added: nothing, or it ends with a slash. -/
def Spec.Base (p : Str) : Prop := p = [] ∨ ∃ q, p = q ++ "/".toList

/-- Where the files go: to the folder given, if its text ends with a slash; or beside the folder with the data, into a folder
with the name of the data set. -/
inductive Spec.Output (cwd : List Str) (spice ds : Str) : Option Str → List Str → Prop
  | given (t : Str) : Output cwd spice ds (some (t ++ "/".toList)) (resolve cwd (t ++ "/".toList))
  | beside (p last : Str) : Base p → spice = p ++ last → last ≠ [] → '/' ∉ last → '/' ∉ ds →
      Output cwd spice ds none (resolve cwd p ++ [ds])

/-- The scan can be shown: its columns and its axes have names that can be looked up, and the axes differ. -/
def Spec.Plottable (f : SpiceFile) : Prop :=
  (∀ c ∈ (columns f).map Prod.fst, Plain c) ∧ ∃ x y, header f "def_x".toList = some x ∧ header f "def_y".toList = some y ∧
    (lookupKey x renamed).getD x ≠ y ∧ PlotColumn f ((lookupKey x renamed).getD x) ∧ PlotColumn f y

/-- The scan read from the NeXus file is the scan loaded from the data file. -/
def Spec.SameScan (s s' : ScanObj) : Prop :=
  s'.name = s.name ∧
  (∀ k, k ≠ "divergence_x".toList → k ≠ "countfile".toList → lookupKey k s'.data = lookupKey k s.data) ∧
  (∀ key, PlainKey key → s'.get key = s.get key) ∧
  scanInfo s' = scanInfo s ∧ sampleUbInfo s' = sampleUbInfo s ∧ instrumentInfo s' = instrumentInfo s

/-! ## Paths -/

theorem splitChar_append (c : Char) (q t : Str) : splitChar c (q ++ c :: t) = splitChar c q ++ splitChar c t := by
  induction hn : q.length using Nat.strong_induction_on generalizing q with
  | _ n ih =>
    by_cases h : c ∈ q
    · obtain ⟨a, w, rfl, ha⟩ := split_first h
      rw [List.append_assoc, List.cons_append, splitChar_cons ha, splitChar_cons ha, List.cons_append,
        ih w.length (by rw [← hn]; simp; omega) w rfl]
    · rw [splitChar_cons h, splitChar_plain h]; rfl

theorem pathParts_append (q t : Str) : pathParts (q ++ '/' :: t) = pathParts q ++ pathParts t := by
  rw [pathParts, splitChar_append, List.filter_append]; rfl

theorem pathParts_nil : pathParts [] = [] := rfl

theorem pathParts_name {n : Str} (h : '/' ∉ n) (h0 : n ≠ []) (h1 : n ≠ ".".toList) : pathParts n = [n] := by
  rw [pathParts, splitChar_plain h, List.filter_cons_of_pos (by simpa using ⟨h0, h1⟩)]; rfl

theorem base_slash (q : Str) : Base (q ++ "/".toList) := .inr ⟨q, rfl⟩

theorem resolve_base (cwd : List Str) {p t : Str} (hp : Base p) (ht : '/' ∉ t) : resolve cwd (p ++ t) = resolve cwd p ++ pathParts t := by
  have htop : t.head? ≠ some '/' := fun e => ht (List.mem_of_mem_head? e)
  rcases hp with rfl | ⟨q, rfl⟩
  · rw [List.nil_append, resolve, if_neg htop]
    show _ = (cwd ++ []) ++ _
    rw [List.append_nil]
  · have e : (q ++ "/".toList ++ t).head? = (q ++ "/".toList).head? := by cases q <;> rfl
    have e1 : pathParts (q ++ "/".toList ++ t) = pathParts (q ++ "/".toList) ++ pathParts t := by
      rw [List.append_assoc]
      show pathParts (q ++ '/' :: t) = pathParts (q ++ '/' :: []) ++ _
      rw [pathParts_append, pathParts_append, pathParts_nil, List.append_nil]
    rw [resolve, resolve, e, e1]
    split
    · rfl
    · rw [List.append_assoc]

theorem resolve_slash (cwd : List Str) {w : Str} (hw : w ≠ []) : resolve cwd (w ++ "/".toList) = resolve cwd w := by
  have e : (w ++ "/".toList).head? = w.head? := by cases w with
    | nil => exact absurd rfl hw
    | cons a l => rfl
  have e1 : pathParts (w ++ "/".toList) = pathParts w := by
    show pathParts (w ++ '/' :: []) = _
    rw [pathParts_append, pathParts_nil, List.append_nil]
  rw [resolve, resolve, e, e1]

theorem nexusFolder_none {p last : Str} (hp : Base p) (hl : '/' ∉ last) (ds : Str) :
    nexusFolder (p ++ last) none ds = p ++ ds ++ "/".toList := by
  rcases hp with rfl | ⟨q, rfl⟩
  · show joinStr _ ((splitChar '/' last).dropLast ++ _) = _
    rw [splitChar_plain hl]; rfl
  · show joinStr _ ((splitChar '/' (q ++ "/".toList ++ last)).dropLast ++ _) = _
    rw [List.append_assoc]
    show joinStr _ ((splitChar '/' (q ++ '/' :: last)).dropLast ++ _) = _
    rw [splitChar_append, splitChar_plain hl, List.dropLast_concat, joinStr_snoc _ (splitChar_ne_nil _ _)]
    show joinStr ['/'] _ ++ _ ++ _ = _
    rw [(join_splitChar '/' q).1]
    simp only [List.append_assoc]

theorem beside_path (cwd : List Str) {p ds : Str} (hp : Base p) (h : '/' ∉ ds) (h0 : ds ≠ []) (h1 : ds ≠ ".".toList) :
    resolve cwd (p ++ ds ++ "/".toList) = resolve cwd p ++ [ds] := by
  rw [resolve_slash cwd (by simp [h0]), resolve_base cwd hp h, pathParts_name h h0 h1]

theorem output_inv {cwd : List Str} {spice ds : Str} {nexus : Option Str} {out : List Str} (h : Output cwd spice ds nexus out)
    (h0 : ds ≠ []) (h1 : ds ≠ ".".toList) : Base (nexusFolder spice nexus ds) ∧ resolve cwd (nexusFolder spice nexus ds) = out := by
  cases h with
  | given t => exact ⟨base_slash t, rfl⟩
  | beside p last hp hs hl hl' hd =>
    subst hs
    rw [nexusFolder_none hp hl']
    exact ⟨base_slash _, beside_path cwd hp hd h0 h1⟩

theorem h5_name {n : Str} (h : '/' ∉ n) : '/' ∉ n ++ ".h5".toList ∧ pathParts (n ++ ".h5".toList) = [n ++ ".h5".toList] := by
  have hs : '/' ∉ n ++ ".h5".toList := by
    rw [List.mem_append]
    rintro (hm | hm)
    · exact h hm
    · exact absurd hm (by decide)
  refine ⟨hs, pathParts_name hs (by simp) fun e => ?_⟩
  have := congrArg List.length e
  simp at this

theorem h5_path (cwd : List Str) {p n : Str} (hp : Base p) (h : '/' ∉ n) :
    resolve cwd (p ++ n ++ ".h5".toList) = resolve cwd p ++ [n ++ ".h5".toList] := by
  obtain ⟨h1, h2⟩ := h5_name h
  rw [List.append_assoc, resolve_base cwd hp h1, h2]

/-! ## Writing -/

section
variable {cwd : List Str} {F : Str} {P : Str → List Str}

theorem saveAll_inv : ∀ (es : List (Str × Dict)) (disk disk' : Disk), (∀ e ∈ es, resolve cwd (F ++ e.1 ++ ".h5".toList) = P e.1) →
    (es.map fun e => P e.1).Nodup → saveAll cwd F es disk = .ok disk' →
    disk'.text = disk.text ∧ (∀ e ∈ es, ∃ f, toNexusFile e.2 e.1 ((disk.nexus (P e.1)).getD .new) = .ok f ∧
      disk'.nexus (P e.1) = some f) ∧ ∀ q, (∀ e ∈ es, q ≠ P e.1) → disk'.nexus q = disk.nexus q
  | [], disk, disk', _, _, h => by
    obtain rfl := Except.ok.inj h
    exact ⟨rfl, by simp, fun _ _ => rfl⟩
  | (n, d) :: rest, disk, disk', hP, hn, h => by
    rw [List.map_cons, List.nodup_cons] at hn
    rw [saveAll, hP (n, d) List.mem_cons_self] at h
    obtain ⟨d1, h1, h⟩ := py_bind_eq_ok.1 h
    rw [saveEntry, map_eq_ok] at h1
    obtain ⟨f, hf, rfl⟩ := h1
    obtain ⟨g1, g2, g3⟩ := saveAll_inv rest _ _ (fun e he => hP e (List.mem_cons_of_mem _ he)) hn.2 h
    have hne : ∀ e ∈ rest, P e.1 ≠ P n := fun e he heq => hn.1 (List.mem_map.2 ⟨e, he, heq⟩)
    refine ⟨g1, fun e he => ?_, fun q hq => ?_⟩
    · rcases List.mem_cons.1 he with rfl | he
      · refine ⟨f, hf, ?_⟩
        rw [g3 _ fun e he => (hne e he).symm]
        exact if_pos rfl
      · obtain ⟨f', h3, h4⟩ := g2 e he
        dsimp only at h3
        rw [if_neg (hne e he)] at h3
        exact ⟨f', h3, h4⟩
    · rw [g3 q fun e he => hq e (List.mem_cons_of_mem _ he)]
      exact if_neg (hq _ List.mem_cons_self)

theorem saveAll_ok : ∀ (es : List (Str × Dict)) (disk : Disk), (∀ e ∈ es, resolve cwd (F ++ e.1 ++ ".h5".toList) = P e.1) →
    (es.map fun e => P e.1).Nodup → (∀ e ∈ es, ∃ f, toNexusFile e.2 e.1 ((disk.nexus (P e.1)).getD .new) = .ok f) →
    ∃ disk', saveAll cwd F es disk = .ok disk'
  | [], disk, _, _, _ => ⟨disk, rfl⟩
  | (n, d) :: rest, disk, hP, hn, h => by
    rw [List.map_cons, List.nodup_cons] at hn
    obtain ⟨f, hf⟩ := h _ List.mem_cons_self
    rw [saveAll, hP (n, d) List.mem_cons_self, saveEntry]
    dsimp only at hf
    rw [hf]
    refine saveAll_ok rest _ (fun e he => hP e (List.mem_cons_of_mem _ he)) hn.2 fun e he => ?_
    have hne : P e.1 ≠ P n := fun heq => hn.1 (List.mem_map.2 ⟨e, he, heq⟩)
    obtain ⟨f', h3⟩ := h e (List.mem_cons_of_mem _ he)
    refine ⟨f', ?_⟩
    dsimp only
    rw [if_neg hne]
    exact h3

end

theorem datasetNameOf_set {d : Dict} {n m : Str} (h : datasetNameOf (setDatasetName d n) = .ok m) : m = n := by
  rw [datasetNameOf] at h
  obtain ⟨a, h1, h⟩ := py_bind_eq_ok.1 h
  obtain ⟨v, h2, h⟩ := py_bind_eq_ok.1 h
  rw [need_eq_ok] at h1
  unfold setDatasetName at h1
  split at h1
  · rw [get?_set, if_pos rfl] at h1
    obtain rfl := Option.some.inj h1
    rw [Val.index, need_eq_ok, get?_set, if_pos rfl] at h2
    obtain rfl := Option.some.inj h2
    exact (Except.ok.inj h).symm
  · rename_i hx
    cases a with
    | leaf x => exact absurd h2 (by simp [Val.index])
    | dict x => exact absurd h1 (hx x)

theorem makeFolder_inv {disk disk' : Disk} {p : List Str} (h : makeFolder disk p = .ok disk') :
    disk'.nexus = disk.nexus ∧ (∀ q, q <+: p → disk'.text q = some .folder) ∧ (∀ q x, disk.text q = some x → disk'.text q = some x) ∧
      ∀ q, ¬ q <+: p → disk'.text q = disk.text q := by
  rw [makeFolder] at h
  split at h
  · exact absurd h (by simp)
  · rename_i hb
    obtain rfl := Except.ok.inj h
    refine ⟨rfl, fun q hq => if_pos hq, fun q x hx => ?_, fun q hq => if_neg hq⟩
    dsimp only
    split
    · rename_i hq
      rw [Bool.not_eq_true, blocked, List.any_eq_false] at hb
      have := hb q (List.mem_inits q p |>.2 hq)
      rw [hx] at this
      cases x with
      | folder => rfl
      | file l => exact absurd rfl this
    · exact hx

theorem makeFolder_ok {disk : Disk} {p : List Str} (h : ∀ q l, q <+: p → disk.text q ≠ some (.file l)) :
    ∃ disk', makeFolder disk p = .ok disk' := by
  rw [makeFolder, if_neg]
  · exact ⟨_, rfl⟩
  · rw [Bool.not_eq_true, blocked, List.any_eq_false]
    intro q hq
    have := h q
    split
    · rename_i l hl
      exact absurd hl (this l ((List.mem_inits q p).1 hq))
    · simp

/-! ## The conversion -/

theorem dataset_ne (f : SpiceFile) (i x : Str) : datasetOf f i x ≠ [] ∧ datasetOf f i x ≠ ".".toList := by
  have h : (datasetOf f i x).head? = some 'I' := rfl
  constructor
  · intro e; rw [e] at h; exact absurd h (by simp)
  · intro e; rw [e] at h; exact absurd h (by decide)

theorem Spec.ScanFile.sub {file i x n : Str} (h : ScanFile file i x n) : ∀ c ∈ n, c ∈ file := by
  intro c hc
  rw [h.eq]
  exact List.mem_append_left _ (List.mem_append_right _ hc)

theorem paths_nodup {es : List (Str × Dict)} (h : (es.map Prod.fst).Nodup) (q : List Str) (t : Str) :
    (es.map fun e => q ++ [t ++ (e.1 ++ ".h5".toList)]).Nodup := by
  have : (es.map fun e => q ++ [t ++ (e.1 ++ ".h5".toList)]) = (es.map Prod.fst).map fun n => q ++ [t ++ (n ++ ".h5".toList)] := by
    rw [List.map_map]; rfl
  rw [this]
  refine List.Nodup.map (fun a b e => ?_) h
  have := List.append_cancel_left e
  simp only [List.cons.injEq, and_true] at this
  exact List.append_cancel_right (List.append_cancel_left this)

section
variable {iso : Str → Py Str} {xml : List Str → Option Str} {cwd : List Str} {disk disk' : Disk} {listing : List Str} {spice : Str}
  {nexus : Option Str}

/-- The steps of the conversion. -/
theorem convert_inv (hc : Conventional listing) (h : convertSpice iso xml cwd disk listing spice nexus = .ok disk') :
    ∃ es first i x n f disk₁, fromSpice iso xml disk.text (resolve cwd spice) listing none = .ok es ∧
      first ∈ listing ∧ ScanFile first i x n ∧ (∀ file ∈ listing, ".dat".toList <:+ file → first ≤ file) ∧
      readSpiceDatafile disk.text (resolve cwd spice ++ ["Datafiles".toList] ++ [first]) = .ok f ∧
      makeFolder disk (resolve cwd (nexusFolder spice nexus (datasetOf f i x))) = .ok disk₁ ∧
      saveAll cwd (nexusFolder spice nexus (datasetOf f i x)) es disk₁ = .ok disk' ∧ (es.map Prod.fst).Nodup ∧
      ∀ n e, (n, e) ∈ es ↔ ∃ file j y d, file ∈ listing ∧ ScanFile file j y n ∧
        (∀ file' ∈ listing, ∀ i' x', ScanFile file' i' x' n → file' ≤ file) ∧
        fileToNx iso xml disk.text (resolve cwd spice ++ ["Datafiles".toList]) file = .ok d ∧
        e = setDatasetName d (datasetOf f i x) := by
  rw [convertSpice] at h
  obtain ⟨es, h1, h⟩ := py_bind_eq_ok.1 h
  obtain ⟨e0, h2, h⟩ := py_bind_eq_ok.1 h
  obtain ⟨ds, h3, h⟩ := py_bind_eq_ok.1 h
  obtain ⟨disk₁, h4, h⟩ := py_bind_eq_ok.1 h
  rw [need_eq_ok] at h2
  obtain ⟨g1, _, first, i, x, n, f, g2, g3, g4, g5, g6⟩ := C78_folder iso xml disk.text _ listing hc es h1
  obtain ⟨_, _, _, d, _, _, _, _, e⟩ := (g6 e0.1 e0.2).1 (List.mem_of_mem_head? h2)
  rw [e] at h3
  obtain rfl := datasetNameOf_set h3
  exact ⟨es, first, i, x, n, f, disk₁, h1, g2, g3, g4, g5, h4, h, g1, g6⟩

end

/-- **C86**: a conversion that succeeds leaves a file `<scan>.h5` for every scan in the folder it writes to, and nothing else is
changed: the entry is added to the file if there is one. -/
theorem C86_files (iso : Str → Py Str) (xml : List Str → Option Str) (cwd : List Str) (disk disk' : Disk) (listing : List Str)
    (spice : Str) (nexus : Option Str) (hc : Conventional listing) (hname : ∀ file ∈ listing, '/' ∉ file)
    (h : convertSpice iso xml cwd disk listing spice nexus = .ok disk') :
    ∃ es first i x n f, fromSpice iso xml disk.text (resolve cwd spice) listing none = .ok es ∧
      first ∈ listing ∧ ScanFile first i x n ∧ (∀ file ∈ listing, ".dat".toList <:+ file → first ≤ file) ∧
      readSpiceDatafile disk.text (resolve cwd spice ++ ["Datafiles".toList] ++ [first]) = .ok f ∧
      ∀ out, Output cwd spice (datasetOf f i x) nexus out →
        (∀ n d, (n, d) ∈ es → ∃ g, toNexusFile d n ((disk.nexus (out ++ [n ++ ".h5".toList])).getD .new) = .ok g ∧
          disk'.nexus (out ++ [n ++ ".h5".toList]) = some g) ∧
        (∀ q, (∀ n d, (n, d) ∈ es → q ≠ out ++ [n ++ ".h5".toList]) → disk'.nexus q = disk.nexus q) ∧
        (∀ q, q <+: out → disk'.text q = some .folder) ∧ (∀ q t, disk.text q = some t → disk'.text q = some t) ∧
        ∀ q, ¬ q <+: out → disk'.text q = disk.text q := by
  obtain ⟨es, first, i, x, n, f, disk₁, h1, h2, h3, h4, h5, h6, h7, h8, h9⟩ := convert_inv hc h
  refine ⟨es, first, i, x, n, f, h1, h2, h3, h4, h5, fun out hout => ?_⟩
  obtain ⟨hb, ho⟩ := output_inv hout (dataset_ne f i x).1 (dataset_ne f i x).2
  have hslash : ∀ e ∈ es, '/' ∉ e.1 := by
    intro e he hs
    obtain ⟨file, j, y, d, hf, hsf, _⟩ := (h9 e.1 e.2).1 he
    exact hname file hf (hsf.sub _ hs)
  obtain ⟨m1, m2, m3, m4⟩ := makeFolder_inv h6
  obtain ⟨g1, g2, g3⟩ := saveAll_inv (P := fun n => out ++ [n ++ ".h5".toList]) es disk₁ disk'
    (fun e he => by rw [h5_path cwd hb (hslash e he), ho]) (paths_nodup h8 out []) h7
  rw [m1] at g2 g3
  rw [ho] at m2 m4
  rw [g1]
  exact ⟨fun n d hd => g2 (n, d) hd, fun q hq => g3 q fun e he => hq e.1 e.2 he, m2, m3, m4⟩

theorem sort_head {L : List Str} {a : Str} (ha : a ∈ L) (hmin : ∀ b ∈ L, a ≤ b) : (sortStr L).head? = some a := by
  have hm := mem_sortStr.2 ha
  have hs := sortStr_sorted L
  cases hl : sortStr L with
  | nil => rw [hl] at hm; exact absurd hm (by simp)
  | cons b l =>
    have hb : b ∈ L := mem_sortStr.1 (by rw [hl]; exact List.mem_cons_self)
    rw [hl] at hm hs
    rcases List.mem_cons.1 hm with rfl | hm
    · rfl
    · rw [le_antisymm ((List.pairwise_cons.1 hs).1 _ hm) (hmin b hb)]; rfl

theorem datasetNameOf_loaded {iso : Str → Py Str} {xml : List Str → Option Str} {fs : FS} {dir : List Str} {file : Str} {f : SpiceFile}
    {ds sn : Str} {s : ScanObj} (h : Loaded iso xml fs dir file f ds sn s) {d : Dict} (hd : fileToNx iso xml fs dir file = .ok d) :
    datasetNameOf (setDatasetName d ds) = .ok ds := by
  obtain ⟨_, p, _, _, _, _, hd', _⟩ := loaded_inv h
  obtain rfl := Except.ok.inj (hd'.symm.trans hd)
  have h2 : (setDatasetName p.entry ds).get? kAttrs = some (.dict ((strDict [("NX_class".toList, "NXentry".toList), required]).set
      "dataset_name".toList (.leaf (.str ds)))) :=
    get?_setDatasetName_attrs (by rw [← entry_attrs p, entry_get _ (by decide) (by decide)]) ds
  rw [datasetNameOf, h2, need_some, py_bind_ok, Val.index, get?_set, if_pos rfl, need_some, py_bind_ok]

/-- **C86**: a folder of data files with different scan names, each of which can be loaded and shown, is converted if nothing is
in the way, and loading a scan from its NeXus file gives the scan that loading the data file gives. -/
theorem C86_scans (iso : Str → Py Str) (xml : List Str → Option Str) (cwd : List Str) (disk : Disk) (listing : List Str)
    (spice : Str) (nexus : Option Str) (hc : Conventional listing) (hname : ∀ file ∈ listing, '/' ∉ file)
    (hdata : HasData disk.text (resolve cwd spice))
    (hdiff : ∀ a ∈ listing, ∀ b ∈ listing, ∀ i x j y n, ScanFile a i x n → ScanFile b j y n → a = b)
    (first i x n0 : Str) (f0 : SpiceFile) (hfirst : first ∈ listing) (hfile : ScanFile first i x n0)
    (hmin : ∀ file ∈ listing, ".dat".toList <:+ file → first ≤ file)
    (hf0 : readSpiceDatafile disk.text (resolve cwd spice ++ ["Datafiles".toList] ++ [first]) = .ok f0)
    (out : List Str) (hout : Output cwd spice (datasetOf f0 i x) nexus out)
    (hfree : ∀ q l, q <+: out → disk.text q ≠ some (.file l))
    (hnew : ∀ file ∈ listing, ∀ j y n, ScanFile file j y n → n ≠ "attrs".toList ∧ disk.nexus (out ++ [n ++ ".h5".toList]) = none)
    (hload : ∀ file ∈ listing, ∀ j y n, ScanFile file j y n → ∃ f s, Plottable f ∧
      Loaded iso xml disk.text (resolve cwd spice ++ ["Datafiles".toList]) file f (datasetOf f0 i x) n s) :
    ∃ disk', convertSpice iso xml cwd disk listing spice nexus = .ok disk' ∧
      ∀ file ∈ listing, ∀ j y n, ScanFile file j y n → ∀ f s,
        Loaded iso xml disk.text (resolve cwd spice ++ ["Datafiles".toList]) file f (datasetOf f0 i x) n s →
        ∃ g s', disk'.nexus (out ++ [n ++ ".h5".toList]) = some g ∧ scanFromNexus g none = .ok s' ∧ SameScan s s' := by
  set dir := resolve cwd spice ++ ["Datafiles".toList] with hdir
  set ds := datasetOf f0 i x with hds
  have hdat : ∀ file ∈ wantedFiles none listing, file ∈ listing ∧ ∃ j y n, ScanFile file j y n := fun file hf => by
    obtain ⟨h1, h2⟩ := mem_wanted.1 hf
    exact ⟨h1, hc.2 file h1 h2⟩
  have hhead := sort_head (mem_wanted.2 ⟨hfirst, hfile.suffix⟩ : first ∈ wantedFiles none listing)
    fun b hb => hmin b (mem_wanted.1 hb).1 (mem_wanted.1 hb).2
  obtain ⟨es, hes⟩ := files_ok (iso := iso) (xml := xml) (fs := disk.text) (dir := dir) (ds := ds) (sortStr (wantedFiles none listing)) []
    fun file hf => by
      obtain ⟨hl, j, y, n, hs⟩ := hdat file (mem_sortStr.1 hf)
      obtain ⟨f, s, _, _, d, hd, _⟩ := hload file hl j y n hs
      exact ⟨n, _, hs.entry, d, hd, rfl⟩
  have hfrom : fromSpice iso xml disk.text (resolve cwd spice) listing none = .ok es := by
    rw [fromSpice_eq hdata, spiceDataToNx, hhead, need_some, py_bind_ok, hf0, py_bind_ok, hfile.dataset, py_bind_ok, hes]
  obtain ⟨g1, _, first', i', x', n', f', k1, k2, k3, k4, g6⟩ := C78_folder iso xml disk.text _ listing hc es hfrom
  obtain rfl : first' = first := le_antisymm (k3 _ hfirst hfile.suffix) (hmin _ k1 k2.suffix)
  obtain rfl := Except.ok.inj (hf0.symm.trans k4)
  obtain ⟨rfl, rfl, rfl⟩ := k2.unique hfile
  rw [← hds] at g6
  have hentry : ∀ file ∈ listing, ∀ j y n, ScanFile file j y n → ∀ d, fileToNx iso xml disk.text dir file = .ok d →
      (n, setDatasetName d ds) ∈ es := fun file hf j y n hs d hd =>
    (g6 _ _).2 ⟨file, j, y, d, hf, hs, fun file' hf' j' y' hs' => (hdiff _ hf' _ hf _ _ _ _ _ hs' hs).le, hd, rfl⟩
  have hback : ∀ e ∈ es, ∃ file j y d, file ∈ listing ∧ ScanFile file j y e.1 ∧ fileToNx iso xml disk.text dir file = .ok d ∧
      e.2 = setDatasetName d ds := fun e he => by
    obtain ⟨file, j, y, d, h1, h2, _, h3, h4⟩ := (g6 e.1 e.2).1 he
    exact ⟨file, j, y, d, h1, h2, h3, h4⟩
  have hslash : ∀ e ∈ es, '/' ∉ e.1 := by
    intro e he hs
    obtain ⟨file, j, y, d, hf, hsf, _⟩ := hback e he
    exact hname file hf (hsf.sub _ hs)
  obtain ⟨hb, ho⟩ := output_inv hout (dataset_ne f0 i' x').1 (dataset_ne f0 i' x').2
  obtain ⟨disk₁, hd1⟩ := makeFolder_ok hfree
  obtain ⟨m1, _, _⟩ := makeFolder_inv hd1
  have hpath : ∀ e ∈ es, resolve cwd (nexusFolder spice nexus ds ++ e.1 ++ ".h5".toList) = out ++ [e.1 ++ ".h5".toList] := fun e he => by
    rw [h5_path cwd hb (hslash e he), ho]
  have hold : ∀ e ∈ es, (disk₁.nexus (out ++ [e.1 ++ ".h5".toList])).getD .new = .new := fun e he => by
    obtain ⟨file, j, y, d, hf, hsf, _⟩ := hback e he
    rw [m1, (hnew file hf j y _ hsf).2]; rfl
  obtain ⟨disk', hsave⟩ := saveAll_ok (P := fun n => out ++ [n ++ ".h5".toList]) es disk₁ hpath (paths_nodup g1 out []) fun e he => by
    obtain ⟨file, j, y, d, hf, hsf, hd, he2⟩ := hback e he
    obtain ⟨f, s, ⟨p1, u, v, p2, p3, p4, p5, p6⟩, hl⟩ := hload file hf j y _ hsf
    obtain ⟨d', g, s', hd', hg, _⟩ := C82_round_trip iso xml disk.text dir file f ds e.1 s hl (hnew file hf j y _ hsf).1 p1 u v p2 p3 p4 p5 p6
    obtain rfl := Except.ok.inj (hd'.symm.trans hd)
    exact ⟨g, by rw [hold e he, he2, hg]⟩
  refine ⟨disk', ?_, fun file hf j y n hsf f s hl => ?_⟩
  · obtain ⟨f, s, _, hl⟩ := hload _ hfirst _ _ _ hfile
    obtain ⟨_, d, hd, _⟩ := id hl
    have hmem := hentry _ hfirst _ _ _ hfile d hd
    cases es with
    | nil => exact absurd hmem (by simp)
    | cons e0 rest =>
      have hds0 : datasetNameOf e0.2 = .ok ds := by
        obtain ⟨file, j, y, d, hf, hsf, hd, he2⟩ := hback e0 List.mem_cons_self
        obtain ⟨f, s, _, hl⟩ := hload file hf j y _ hsf
        rw [he2]
        exact datasetNameOf_loaded hl hd
      rw [convertSpice, hfrom, py_bind_ok, List.head?_cons, need_some, py_bind_ok, hds0, py_bind_ok, ho, hd1, py_bind_ok, hsave]
  · obtain ⟨f2, s2, ⟨p1, u, v, p2, p3, p4, p5, p6⟩, hl2⟩ := hload file hf j y n hsf
    obtain rfl := Except.ok.inj (hl2.1.symm.trans hl.1)
    obtain ⟨d, g, s', hd, hg, hs', q1, q2, q3, q4, q5, q6⟩ := C82_round_trip iso xml disk.text dir file f2 ds n s hl (hnew file hf j y n hsf).1
      p1 u v p2 p3 p4 p5 p6
    have hmem := hentry file hf j y n hsf d hd
    obtain ⟨_, w, _⟩ := saveAll_inv (P := fun n => out ++ [n ++ ".h5".toList]) es disk₁ disk' hpath (paths_nodup g1 out []) hsave
    obtain ⟨g', w1, w2⟩ := w _ hmem
    rw [hold _ hmem] at w1
    obtain rfl := Except.ok.inj (hg.symm.trans w1)
    exact ⟨g, s', w2, hs', q1, q2, q3, q4, q5, q6⟩

/-- **C86** (finding): if the text of the output folder does not end with a slash, that folder is made and left as it was; the
files are put beside it, with the name of the folder before the name of the scan. -/
theorem C86_no_slash (iso : Str → Py Str) (xml : List Str → Option Str) (cwd : List Str) (disk disk' : Disk) (listing : List Str)
    (spice p last : Str) (hp : Base p) (hl : '/' ∉ last) (hl0 : last ≠ []) (hl1 : last ≠ ".".toList) (hc : Conventional listing)
    (hname : ∀ file ∈ listing, '/' ∉ file) (h : convertSpice iso xml cwd disk listing spice (some (p ++ last)) = .ok disk') :
    disk'.text (resolve cwd p ++ [last]) = some .folder ∧
    (∀ q, resolve cwd p ++ [last] <+: q → disk'.nexus q = disk.nexus q) ∧
    ∃ es, fromSpice iso xml disk.text (resolve cwd spice) listing none = .ok es ∧ es ≠ [] ∧
      ∀ n d, (n, d) ∈ es → ∃ g, disk'.nexus (resolve cwd p ++ [last ++ n ++ ".h5".toList]) = some g := by
  obtain ⟨es, first, i, x, n, f, disk₁, h1, h2, h3, h4, h5, h6, h7, h8, h9⟩ := convert_inv hc h
  have hes : es ≠ [] := by
    rintro rfl
    rw [convertSpice, h1] at h
    exact absurd h (by simp [need, bind, Except.bind])
  have hslash : ∀ e ∈ es, '/' ∉ e.1 := by
    intro e he hs
    obtain ⟨file, j, y, d, hf, hsf, _⟩ := (h9 e.1 e.2).1 he
    exact hname file hf (hsf.sub _ hs)
  obtain ⟨m1, m2, m3, m4⟩ := makeFolder_inv h6
  have hfold : resolve cwd (p ++ last) = resolve cwd p ++ [last] := by rw [resolve_base cwd hp hl, pathParts_name hl hl0 hl1]
  obtain ⟨g1, g2, g3⟩ := saveAll_inv (P := fun n => resolve cwd p ++ [last ++ (n ++ ".h5".toList)]) es disk₁ disk'
    (fun e he => by
      have hs : '/' ∉ last ++ (e.1 ++ ".h5".toList) := by
        rw [List.mem_append]
        rintro (hm | hm)
        · exact hl hm
        · exact (h5_name (hslash e he)).1 hm
      have hlen : 0 < last.length := List.length_pos_iff.2 hl0
      show resolve cwd (p ++ last ++ e.1 ++ ".h5".toList) = _
      rw [List.append_assoc, List.append_assoc, resolve_base cwd hp hs, pathParts_name hs (by simp) fun e' => by
        have := congrArg List.length e'
        simp at this
        omega]) (paths_nodup h8 _ last) h7
  refine ⟨?_, fun q hq => ?_, es, h1, hes, fun n d hd => ?_⟩
  · rw [g1, ← hfold]
    exact m2 _ (List.prefix_refl _)
  · rw [g3 q fun e he heq => ?_, m1]
    rw [heq, List.prefix_append_right_inj] at hq
    have := List.cons_prefix_cons.1 hq
    have := congrArg List.length this.1
    simp at this
  · obtain ⟨g, _, hg⟩ := g2 _ hd
    rw [List.append_assoc]
    exact ⟨g, hg⟩

/-- **C86** (finding): if the text of the folder with the data ends with a slash, the files are put inside that folder. -/
theorem C86_inside (iso : Str → Py Str) (xml : List Str → Option Str) (cwd : List Str) (disk disk' : Disk) (listing : List Str)
    (q : Str) (hq : q ≠ []) (hc : Conventional listing) (hname : ∀ file ∈ listing, '/' ∉ file)
    (h : convertSpice iso xml cwd disk listing (q ++ "/".toList) none = .ok disk') :
    ∃ es first i x n f, fromSpice iso xml disk.text (resolve cwd q) listing none = .ok es ∧ es ≠ [] ∧
      first ∈ listing ∧ ScanFile first i x n ∧ (∀ file ∈ listing, ".dat".toList <:+ file → first ≤ file) ∧
      readSpiceDatafile disk.text (resolve cwd q ++ ["Datafiles".toList] ++ [first]) = .ok f ∧
      ('/' ∉ datasetOf f i x → ∀ n d, (n, d) ∈ es →
        ∃ g, disk'.nexus (resolve cwd q ++ [datasetOf f i x, n ++ ".h5".toList]) = some g) := by
  obtain ⟨es, first, i, x, n, f, disk₁, h1, h2, h3, h4, h5, h6, h7, h8, h9⟩ := convert_inv hc h
  have hes : es ≠ [] := by
    rintro rfl
    rw [convertSpice, h1] at h
    exact absurd h (by simp [need, bind, Except.bind])
  rw [resolve_slash cwd hq] at h1 h5
  refine ⟨es, first, i, x, n, f, h1, hes, h2, h3, h4, h5, fun hds n d hd => ?_⟩
  have hslash : ∀ e ∈ es, '/' ∉ e.1 := by
    intro e he hs
    obtain ⟨file, j, y, d, hf, hsf, _⟩ := (h9 e.1 e.2).1 he
    exact hname file hf (hsf.sub _ hs)
  have hF := nexusFolder_none (last := []) (base_slash q) (by simp) (datasetOf f i x)
  rw [List.append_nil] at hF
  rw [hF] at h7
  obtain ⟨_, g2, _⟩ := saveAll_inv (P := fun n => (resolve cwd q ++ [datasetOf f i x]) ++ [n ++ ".h5".toList]) es disk₁ disk'
    (fun e he => by
      rw [h5_path cwd (base_slash _) (hslash e he), beside_path cwd (base_slash q) hds (dataset_ne f i x).1 (dataset_ne f i x).2,
        resolve_slash cwd hq]) (paths_nodup h8 _ []) h7
  obtain ⟨g, _, hg⟩ := g2 _ hd
  refine ⟨g, ?_⟩
  rw [← hg, List.append_assoc]
  rfl

end Tavi
