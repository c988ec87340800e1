import Verif.Model.TaviFile
import Verif.Props.PlotLinkDemo
import Verif.Props.Convert

/-!
# A saved session with its default plots (C46)
-/

namespace Tavi

open Spec

namespace Spec

/-- The default plot of the entry is over `x` and `y`; `ox` and `oy` say where their numbers are, if anywhere. -/
structure PlotOf (d : Dict) (x y : Str) (ox oy : Option (List Str)) : Prop where
  data : ∃ A, view d ["data".toList] = some (none, A) ∧ A "signal".toList = some (.str y) ∧ A "axes".toList = some (.str x)
  differ : x ≠ y
  onX : AxisOf d x ox
  onY : AxisOf d y oy
  room : ∀ k z, k = x ∨ k = y → view d ["data".toList, k] = some z → z.1 ≠ none

/-- An entry that can be saved: it asks for no default plot or for one. -/
def Savable (d : Dict) : Prop := Entry d ∧ (view d ["data".toList] = none ∨ ∃ x y ox oy, PlotOf d x y ox oy)

/-- `d'` is what the entry `d`, saved as the scan `n` of the experiment `e`, is to be after opening the file: every group,
dataset and attribute except `target`, and under the names of the axes in the plot the datasets they stand for, which say where
they are in the file. -/
def Opened (e n : Str) (d d' : Dict) : Prop :=
  (view d ["data".toList] = none → ∀ p, view d' p = view d p) ∧
  ∀ x y ox oy, PlotOf d x y ox oy →
    (∀ p, (ox.isSome → ¬ ["data".toList, x] <+: p) → (oy.isSome → ¬ ["data".toList, y] <+: p) → SameBut (view d' p) (view d p)) ∧
    ∀ k o p, (k = x ∧ o = ox) ∨ (k = y ∧ o = oy) → o = some p →
      SameBut (view d' ["data".toList, k]) (view d p) ∧
      ∃ w B, view d' p = some (w, B) ∧ B "target".toList = some (.str ("/data/".toList ++ e ++ '/' :: n ++ p.flatMap fun k => '/' :: k))

/-- Every experiment once, every scan of an experiment once. -/
def Once (data : TaviData) : Prop := (data.map Prod.fst).Nodup ∧ ∀ es ∈ data, (es.2.map Prod.fst).Nodup

end Spec

/-! ## Writing one entry after the other -/

/-- The entry can be written into any file that has none of this name, and is then read as something that `P` says. -/
def Writes (pre : Str) (P : Str → Dict → Dict → Prop) (n : Str) (d : Dict) : Prop :=
  ∀ (f : NxFile) (a : List (Str × Leaf)) (ch : H5s), f.tree = .node none a ch → ch.get? n = none → (∀ l ∈ f.links, l.entry ≠ n) →
    f.Clean → ∃ f' e, toNexusIn pre d n f = .ok f' ∧ NewEntry n f f' ∧ f'.Clean ∧
      lookupKey n (readEntries f'.resolved.children) = some e ∧ P n d e

theorem newEntry_others {n : Str} {f f' : NxFile} (h : NewEntry n f f') (hl : ∀ l ∈ f.links, l.entry ≠ n) {k : Str} (hk : k ≠ n) :
    f'.resolved.children.get? k = f.resolved.children.get? k := by
  obtain ⟨a, ch, g, own, hf, rfl, hown⟩ := h
  obtain ⟨ch', hr1, hr2⟩ := resolved_entry ⟨.node none a (ch.set n g), f.links ++ own⟩ (a := a) (ch := ch.set n g) rfl
  obtain ⟨ch₀, hr3, hr4⟩ := resolved_entry f hf
  rw [hr1, hr3]
  show ch'.get? k = ch₀.get? k
  rw [hr2, hr4, H5s.get?_set, if_neg hk]
  congr 1
  funext t
  rw [List.foldl_append, linkInto_other _ k own fun l h' => by rw [hown l h']; exact Ne.symm hk]
  refine List.foldl_ext _ _ _ fun t l hl' => ?_
  unfold linkInto
  by_cases hle : l.entry = k
  · rw [if_pos hle, if_pos hle]
    have : (NxFile.mk (.node none a (ch.set n g)) (f.links ++ own)).target l = f.target l := by
      rw [NxFile.target, NxFile.target, hf, H5.at, H5.at, H5s.get?_set, if_neg (hl l hl')]
    rw [this]
  · rw [if_neg hle, if_neg hle]

theorem saveEntries_ok {exp : Str} {P : Str → Dict → Dict → Prop} (scans : List (Str × Dict)) (hnd : (scans.map Prod.fst).Nodup)
    (hw : ∀ nd ∈ scans, Writes (expPath exp) P nd.1 nd.2) (f : NxFile) (a : List (Str × Leaf)) (ch : H5s) (hf : f.tree = .node none a ch)
    (hnew : ∀ n ∈ scans.map Prod.fst, ch.get? n = none ∧ ∀ l ∈ f.links, l.entry ≠ n) (hc : f.Clean) :
    ∃ f', saveEntries exp scans f = .ok f' ∧
      (∀ n, n ∉ scans.map Prod.fst → lookupKey n (readEntries f'.resolved.children) = lookupKey n (readEntries f.resolved.children)) ∧
      ∀ n d, (n, d) ∈ scans → ∃ e, lookupKey n (readEntries f'.resolved.children) = some e ∧ P n d e := by
  induction scans generalizing f ch with
  | nil => exact ⟨f, rfl, fun n _ => rfl, by simp⟩
  | cons nd l ih =>
    obtain ⟨n0, d0⟩ := nd
    rw [List.map_cons, List.nodup_cons] at hnd
    obtain ⟨hn1, hn2⟩ := hnew n0 (by simp)
    obtain ⟨f1, e1, g1, g2, g3, g4, g5⟩ := hw (n0, d0) (by simp) f a ch hf hn1 hn2 hc
    obtain ⟨a', ch', g, own, k1, k2, k3⟩ := id g2
    rw [hf] at k1
    injection k1 with _ k1 k1'
    subst k1 k1'
    have hne : ∀ n ∈ l.map Prod.fst, n ≠ n0 := fun n hn e => hnd.1 (by rw [← e]; exact hn)
    obtain ⟨f', m1, m2, m3⟩ := ih hnd.2 (fun nd h => hw nd (by simp [h])) f1 (ch.set n0 g) (by rw [k2]) (fun n hn => by
      obtain ⟨q1, q2⟩ := hnew n (by simp only [List.map_cons, List.mem_cons]; exact .inr hn)
      refine ⟨by rw [H5s.get?_set, if_neg (hne n hn), q1], fun l' hl' => ?_⟩
      rw [k2] at hl'
      rcases List.mem_append.1 hl' with h | h
      · exact q2 l' h
      · rw [k3 l' h]; exact (hne n hn).symm) g3
    refine ⟨f', ?_, fun n hn => ?_, fun n d hnd' => ?_⟩
    · rw [saveEntries, g1, py_bind_ok, m1]
    · rw [List.map_cons, List.mem_cons, not_or] at hn
      rw [m2 n hn.2, lookupKey_readEntries, lookupKey_readEntries, newEntry_others g2 hn2 hn.1]
    · rcases List.mem_cons.1 hnd' with h | h
      · obtain ⟨rfl, rfl⟩ := Prod.mk.inj h
        exact ⟨e1, by rw [m2 n hnd.1, g4], g5⟩
      · exact m3 n d h

theorem clean_file_new : NxFile.new.Clean := ⟨clean_node.2 trivial, by simp [NxFile.new]⟩

theorem lookupKey_append {β : Type} (l m : List (Str × β)) (k : Str) : lookupKey k (l ++ m) = (lookupKey k l).or (lookupKey k m) := by
  induction l with
  | nil => rfl
  | cons kv l ih =>
    obtain ⟨k', v⟩ := kv
    rw [List.cons_append, lookupKey, lookupKey]
    split
    · rfl
    · exact ih

theorem saveGroups_ok {P : Str → Str → Dict → Dict → Prop} (data : TaviData) (hn : Once data)
    (hw : ∀ es ∈ data, ∀ nd ∈ es.2, Writes (expPath es.1) (P es.1) nd.1 nd.2) (t : TaviFile)
    (hnew : ∀ e ∈ data.map Prod.fst, lookupKey e t = none) :
    ∃ t', saveGroups data t = .ok t' ∧ (∀ e, e ∉ data.map Prod.fst → lookupKey e t' = lookupKey e t) ∧
      ∀ e scans, (e, scans) ∈ data → ∃ f, lookupKey e t' = some f ∧
        (∀ n, n ∉ scans.map Prod.fst → lookupKey n (readEntries f.resolved.children) = none) ∧
        ∀ n d, (n, d) ∈ scans → ∃ d', lookupKey n (readEntries f.resolved.children) = some d' ∧ P e n d d' := by
  induction data generalizing t with
  | nil => exact ⟨t, rfl, fun e _ => rfl, by simp⟩
  | cons es l ih =>
    obtain ⟨e0, scans0⟩ := es
    obtain ⟨hn1, hn2⟩ := hn
    rw [List.map_cons, List.nodup_cons] at hn1
    obtain ⟨f, g1, g2, g3⟩ := saveEntries_ok (exp := e0) scans0 (hn2 (e0, scans0) (by simp)) (hw (e0, scans0) (by simp)) .new [] .nil rfl
      (fun n _ => ⟨rfl, by simp [NxFile.new]⟩) clean_file_new
    have h0 : ∀ n, lookupKey n (readEntries NxFile.new.resolved.children) = none := fun n => rfl
    have hne : ∀ e ∈ l.map Prod.fst, e ≠ e0 := fun e he h => hn1.1 (by rw [← h]; exact he)
    have hold := hnew e0 (by simp)
    have hkey : ∀ e, lookupKey e (t ++ [(e0, f)]) = if e = e0 then some f else lookupKey e t := by
      intro e
      rw [lookupKey_append]
      by_cases he : e = e0
      · rw [if_pos he, he, hold]
        show (if e0 = e0 then some f else none) = _
        rw [if_pos rfl]
      · rw [if_neg he]
        have : lookupKey e [(e0, f)] = none := by rw [lookupKey_eq_none]; simpa using he
        rw [this, Option.or_none]
    obtain ⟨t', m1, m2, m3⟩ := ih ⟨hn1.2, fun es h => hn2 es (by simp [h])⟩ (fun es h => hw es (by simp [h])) (t ++ [(e0, f)])
      (fun e he => by
        rw [hkey, if_neg (hne e he)]
        exact hnew e (by rw [List.map_cons, List.mem_cons]; exact .inr he))
    refine ⟨t', ?_, fun e he => ?_, fun e scans hes => ?_⟩
    · rw [saveGroups, hold, if_neg (by simp), g1, py_bind_ok, m1]
    · rw [List.map_cons, List.mem_cons, not_or] at he
      rw [m2 e he.2, hkey, if_neg he.1]
    · rcases List.mem_cons.1 hes with h | h
      · obtain ⟨rfl, rfl⟩ := Prod.mk.inj h
        exact ⟨f, by rw [m2 e hn1.1, hkey, if_pos rfl], fun n hn => by rw [g2 n hn, h0], g3⟩
      · exact m3 e scans h

theorem lookupKey_openTavi (t : TaviFile) (e : Str) :
    lookupKey e (openTavi t) = (lookupKey e t).map fun f => readEntries f.resolved.children := by
  induction t with
  | nil => rfl
  | cons kv l ih =>
    obtain ⟨k, f⟩ := kv
    rw [openTavi, List.map_cons, lookupKey, lookupKey]
    split
    · rfl
    · exact ih

theorem saved_ok {P : Str → Str → Dict → Dict → Prop} (data : TaviData) (hn : Once data)
    (hw : ∀ e n d, filed data e n = some d → Writes (expPath e) (P e) n d) (path : Str) :
    ∃ t, saveFile (some path) data = .ok t ∧ ∀ e n, (filed data e n = none → filed (openTavi t) e n = none) ∧
      ∀ d, filed data e n = some d → ∃ d', filed (openTavi t) e n = some d' ∧ P e n d d' := by
  obtain ⟨t, h1, h2, h3⟩ := saveGroups_ok data hn (fun es hes nd hnd => hw es.1 nd.1 nd.2 (by
    rw [filed, (lookupKey_mem hn.1).2 hes, Option.bind_some, (lookupKey_mem (hn.2 es hes)).2 hnd])) [] (fun _ _ => rfl)
  refine ⟨t, by rw [saveFile, if_neg (by simp), h1], fun e n => ?_⟩
  rw [filed, filed, lookupKey_openTavi]
  cases hl : lookupKey e data with
  | none =>
    rw [h2 e ((lookupKey_eq_none _ _).1 hl)]
    exact ⟨fun _ => rfl, fun d hd => absurd hd (by simp)⟩
  | some scans =>
    have hmem := (lookupKey_mem hn.1).1 hl
    obtain ⟨f, k1, k2, k3⟩ := h3 e scans hmem
    rw [k1, Option.bind_some, Option.map_some, Option.bind_some]
    exact ⟨fun h => k2 n ((lookupKey_eq_none _ _).1 h), fun d hd => k3 n d ((lookupKey_mem (hn.2 _ hmem)).1 hd)⟩

/-! ## What is in the file -/

theorem view_entry {r e : Dict} {n : Str} (hn : Plain n) (h : r.get? n = some (.dict e)) (p : List Str) : view r (n :: p) = view e p := by
  rw [view, if_neg (not_or.2 hn), h]

theorem savable_writes {e n : Str} (hn : Plain n) {d : Dict} (hs : Savable d) : Writes (expPath e) (Opened e) n d := by
  intro f a ch hf hnew hl hc
  obtain ⟨hd, hs⟩ := hs
  have ht := entry_tidy hd
  have hex : ∃ f', toNexusIn (expPath e) d n f = .ok f' ∧ NewEntry n f f' ∧ ∃ x : Dict, (readMembers f'.resolved.children).get? n = some (.dict x) := by
    have key : ∀ {f' : NxFile} {r : Dict}, fromNexusFile f' none = .ok r → view r [n] ≠ none →
        ∃ x : Dict, (readMembers f'.resolved.children).get? n = some (.dict x) := by
      intro f' r hr hv
      obtain rfl : readMembers f'.resolved.children = r := Except.ok.inj hr
      rw [view, if_neg (not_or.2 hn)] at hv
      cases hg : (readMembers f'.resolved.children).get? n with
      | none => rw [hg] at hv; exact absurd rfl hv
      | some v =>
        cases v with
        | leaf v => rw [hg] at hv; exact absurd rfl hv
        | dict x => exact ⟨x, rfl⟩
    rcases hs with hs | ⟨x, y, ox, oy, ⟨A, h1, h2, h3⟩, h4, h5, h6, h7⟩
    · obtain ⟨f', r, g1, g2, _, g4, g5⟩ := no_data_in (expPath e) d hd n hn f a ch hf hnew hl hs
      exact ⟨f', g1, g2, key g4 (by rw [g5 []]; simp [view])⟩
    · obtain ⟨f', r, r₀, g1, g2, g3, _, g5, _⟩ := default_plot_in (expPath e) d hd n hn f a ch hf hnew hl x y ox oy A h1 h2 h3 h4 h5 h6 h7
      refine ⟨f', g1, g2, key g3 fun hv => ?_⟩
      have := (g5 [] (by simp) (by simp)).1
      rw [hv] at this
      exact absurd this (by simp [view])
  obtain ⟨f', g1, g2, x, hx⟩ := hex
  have hlook : lookupKey n (readEntries f'.resolved.children) = some x := by
    rw [get?_readMembers] at hx
    rw [lookupKey_readEntries]
    cases hg : f'.resolved.children.get? n with
    | none => rw [hg] at hx; exact absurd hx (by simp)
    | some g =>
      rw [hg] at hx
      have := Option.some.inj hx
      injection this with this
      rw [Option.map_some, this]
  refine ⟨f', x, g1, g2, clean_in ht hn.1 hf hnew hl hc g1, hlook, fun hno p => ?_, fun x' y ox oy ⟨⟨A, h1, h2, h3⟩, h4, h5, h6, h7⟩ => ?_⟩
  · obtain ⟨f'', r, k1, _, _, k4, k5⟩ := no_data_in (expPath e) d hd n hn f a ch hf hnew hl hno
    obtain rfl := Except.ok.inj (g1.symm.trans k1)
    obtain rfl : readMembers f'.resolved.children = r := Except.ok.inj k4
    rw [← k5 p, view_entry hn hx]
  · obtain ⟨f'', r, r₀, k1, _, k3, _, k5, k6, _⟩ :=
      default_plot_in (expPath e) d hd n hn f a ch hf hnew hl x' y ox oy A h1 h2 h3 h4 h5 h6 h7
    obtain rfl := Except.ok.inj (g1.symm.trans k1)
    obtain rfl : readMembers f'.resolved.children = r := Except.ok.inj k3
    refine ⟨fun p hp hp' => by rw [← view_entry hn hx]; exact k5 p hp hp', fun k o p hko ho => ?_⟩
    obtain ⟨m1, w, B, m2, m3⟩ := k6 k o p hko ho
    refine ⟨by rw [← view_entry hn hx]; exact m1, w, B, by rw [← view_entry hn hx]; exact m2, ?_⟩
    rw [m3, expPath, pathText, List.flatMap_cons]
    simp only [List.append_assoc, List.cons_append]

/-- **C46**: saving under a file name and opening the file gives back every scan of the session and no other, with every group,
dataset and attribute; the plot group of a scan has, under the names of its axes, the datasets that these stand for, and each of
them says where it is in the file. -/
theorem C46_file (data : TaviData) (hn : Once data) (hs : ∀ e n d, filed data e n = some d → Plain n ∧ Savable d) (path : Str) :
    ∃ t, saveFile (some path) data = .ok t ∧ ∀ e n, (filed data e n = none → filed (openTavi t) e n = none) ∧
      ∀ d, filed data e n = some d → ∃ d', filed (openTavi t) e n = some d' ∧ Opened e n d d' :=
  saved_ok data hn (fun e n d h => savable_writes (hs e n d h).1 (hs e n d h).2) path

/-! ## Scans loaded from data files -/

/-- The entry `d` of the session was loaded from a data file with a default plot over two of its columns, whatever was looked at
since; `s` is the scan of that file. -/
def Spec.FromFile (iso : Str → Py Str) (xml : List Str → Option Str) (fs : FS) (n : Str) (d : Dict) (s : ScanObj) : Prop :=
  ∃ dir file f ds d₀ qs, Plottable f ∧ Loaded iso xml fs dir file f ds n s ∧ fileToNx iso xml fs dir file = .ok d₀ ∧
    d = afterReads (setDatasetName d₀ ds) qs

section
variable {iso : Str → Py Str} {xml : List Str → Option Str} {fs : FS}

theorem fromFile_writes {e n : Str} (hn : n ≠ "attrs".toList) {d : Dict} {s : ScanObj} (h : FromFile iso xml fs n d s)
    {f : NxFile} {a : List (Str × Leaf)} {ch : H5s} (hf : f.tree = .node none a ch) (hnew : ch.get? n = none)
    (hl : ∀ l ∈ f.links, l.entry ≠ n) (hc : f.Clean) :
    ∃ f' x s', toNexusIn (expPath e) d n f = .ok f' ∧ NewEntry n f f' ∧ f'.Clean ∧
      (readMembers f'.resolved.children).get? n = some (.dict x) ∧ newScan [] n x = .ok s' ∧ SameScan s s' := by
  obtain ⟨dir, file, sf, ds, d₀, qs, ⟨p1, u, v, p2, p3, p4, p5, p6⟩, hload, hd₀, hd⟩ := h
  obtain ⟨logs, p, h1, h2, h3, h4, h5⟩ := loaded_in hload hn p1 p2 p3 p4 p5 p6
  obtain rfl := Except.ok.inj (hd₀.symm.trans h3)
  have hD : d = setDatasetName p.entry ds ∨ d = dropLogs (setDatasetName p.entry ds) := by
    rw [hd]
    cases qs with
    | nil => exact .inl rfl
    | cons q qs => exact .inr (by rw [afterReads_cons, dropLogs_eq])
  obtain ⟨f', x, s', g1, g2, g3, g4, _, g6, g7, g8, g9, g10, _⟩ := h5 (expPath e) d f a ch hD hf hnew hl hc
  exact ⟨f', x, s', g1, g2, g3, g4, g6, back_same hload p2 p3 h1 h2 h4 g7 g8 g9 g10⟩

theorem readEntries_get {ch : H5s} {n : Str} {x : Dict} (hx : (readMembers ch).get? n = some (.dict x)) :
    lookupKey n (readEntries ch) = some x := by
  rw [get?_readMembers] at hx
  rw [lookupKey_readEntries]
  cases hg : ch.get? n with
  | none => rw [hg] at hx; exact absurd hx (by simp)
  | some g =>
    rw [hg] at hx
    have := Option.some.inj hx
    injection this with this
    rw [Option.map_some, this]

end

/-- **C46**: a session of scans loaded from data files, whatever was looked at, can be saved under a file name, and every scan of
the opened file is the scan that loading its data file gives: name, columns, metadata and what it reports. -/
theorem C46_scans (iso : Str → Py Str) (xml : List Str → Option Str) (fs : FS) (data : TaviData) (hn : Once data)
    (hs : ∀ e n d, filed data e n = some d → n ≠ "attrs".toList ∧ ∃ s, FromFile iso xml fs n d s) (path : Str) :
    ∃ t, saveFile (some path) data = .ok t ∧ ∀ e n, (filed data e n = none → filed (openTavi t) e n = none) ∧
      ∀ d, filed data e n = some d → ∃ d', filed (openTavi t) e n = some d' ∧
        ∀ s, FromFile iso xml fs n d s → ∃ s', newScan [] n d' = .ok s' ∧ SameScan s s' := by
  refine saved_ok (P := fun e n d d' => ∀ s, FromFile iso xml fs n d s → ∃ s', newScan [] n d' = .ok s' ∧ SameScan s s') data hn
    (fun e n d h f a ch hf hnew hl hc => ?_) path
  obtain ⟨hn', s, hs⟩ := hs e n d h
  obtain ⟨f', x, s', g1, g2, g3, g4, g5, g6⟩ := fromFile_writes (e := e) hn' hs hf hnew hl hc
  refine ⟨f', x, g1, g2, g3, readEntries_get g4, fun s₂ hs₂ => ?_⟩
  obtain ⟨f₂, x₂, s₂', k1, _, _, k4, k5, k6⟩ := fromFile_writes (e := e) hn' hs₂ hf hnew hl hc
  obtain rfl := Except.ok.inj (g1.symm.trans k1)
  rw [g4] at k4
  have := Option.some.inj k4
  injection this with this
  subst this
  exact ⟨s₂', k5, k6⟩

/-- **C46**: nothing is saved under no name if there is anything to save: `TypeError`. -/
theorem C46_file_unnamed (data : TaviData) (e : Str) (scans : List (Str × Dict)) (h : (e, scans) ∈ data) (hs : scans ≠ []) :
    saveFile none data = .error .typeError := by
  rw [saveFile, if_pos ⟨rfl, _, h, hs⟩]

/-- **C46** (finding): one entry whose plot group does not say what to plot keeps the whole session from being saved
(`KeyError`). -/
theorem C46_no_plot (data : TaviData) (e n : Str) (d : Dict) (hd : Entry d) (before after : List (Str × Dict)) (rest : TaviData)
    (hn : Once data) (hdata : data = (e, before ++ (n, d) :: after) :: rest)
    (hb : ∀ m x, (m, x) ∈ before → Plain m ∧ Savable x)
    (z : Option Leaf × (Str → Option Leaf)) (hz : view d ["data".toList] = some z)
    (hno : z.2 "signal".toList = none ∨ z.2 "axes".toList = none) (path : Str) :
    saveFile (some path) data = .error .keyError := by
  have hnd := hn.2 _ (by rw [hdata]; exact List.mem_cons_self)
  rw [saveFile, if_neg (by simp), hdata, saveGroups, show lookupKey e ([] : TaviFile) = none from rfl, if_neg (by simp)]
  have key : ∀ (l : List (Str × Dict)) (f : NxFile) (a : List (Str × Leaf)) (ch : H5s), f.tree = .node none a ch →
      ((l ++ (n, d) :: after).map Prod.fst).Nodup → (∀ m ∈ (l ++ (n, d) :: after).map Prod.fst, ch.get? m = none ∧ ∀ k ∈ f.links, k.entry ≠ m) →
      f.Clean → (∀ m x, (m, x) ∈ l → Plain m ∧ Savable x) → saveEntries e (l ++ (n, d) :: after) f = .error .keyError := by
    intro l
    induction l with
    | nil =>
      intro f a ch hf _ hnew _ _
      obtain ⟨h1, h2⟩ := hnew n (by simp)
      rw [List.nil_append, saveEntries, C80_no_signal d hd n f a ch hf h1 h2 z hz hno]
      rfl
    | cons mx l ih =>
      obtain ⟨m, x⟩ := mx
      intro f a ch hf hnd hnew hc hall
      obtain ⟨h1, h2⟩ := hnew m (by simp)
      obtain ⟨hm, hx⟩ := hall m x (by simp)
      obtain ⟨f', x', g1, g2, g3, _⟩ := savable_writes (e := e) hm hx f a ch hf h1 h2 hc
      obtain ⟨a', ch', g, own, k1, k2, k3⟩ := g2
      rw [hf] at k1
      injection k1 with _ k1 k1'
      subst k1 k1'
      rw [List.cons_append, List.map_cons, List.nodup_cons] at hnd
      rw [List.cons_append, saveEntries, g1, py_bind_ok]
      have hne : ∀ q ∈ (l ++ (n, d) :: after).map Prod.fst, q ≠ m := fun q hq h => hnd.1 (by rw [← h]; exact hq)
      refine ih f' a (ch.set m g) (by rw [k2]) hnd.2 (fun q hq => ?_) g3 fun m' x' h => hall m' x' (by simp [h])
      obtain ⟨q1, q2⟩ := hnew q (by rw [List.cons_append, List.map_cons]; exact List.mem_cons_of_mem _ hq)
      refine ⟨by rw [H5s.get?_set, if_neg (hne q hq), q1], fun l' hl' => ?_⟩
      rw [k2] at hl'
      rcases List.mem_append.1 hl' with h | h
      · exact q2 l' h
      · rw [k3 l' h]; exact (hne q hq).symm
  rw [key before .new [] .nil rfl hnd (fun m _ => ⟨rfl, by simp [NxFile.new]⟩) clean_file_new hb]
  rfl

end Tavi
