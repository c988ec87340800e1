import Verif.Props.ScanData

/-!
# The name of the data set in the attributes of an entry
-/

namespace Tavi

open Spec

theorem scanItems_setAttrs (d : Dict) (w : Val) (parts : List Str) (b : Bool) :
    scanItems (d.set kAttrs w) parts b = scanItems d parts b := by
  induction d using Dict.rec (motive_1 := fun _ => True) with
  | leaf => trivial
  | dict => trivial
  | nil =>
    rw [Dict.set, scanItems.eq_def (.cons kAttrs w .nil)]
    show (if kAttrs = kAttrs ∨ kAttrs = kDataset then _ else _) = _
    rw [if_pos (Or.inl rfl)]
  | cons k v rest _ ih =>
    rw [Dict.set]
    by_cases hk : k = kAttrs
    · rw [if_pos hk, scanItems.eq_def (.cons k w rest), scanItems.eq_def (.cons k v rest)]
      show (if k = kAttrs ∨ k = kDataset then _ else _) = (if k = kAttrs ∨ k = kDataset then _ else _)
      rw [if_pos (Or.inl hk), if_pos (Or.inl hk)]
    · rw [if_neg hk, scanItems.eq_def (.cons k v (rest.set kAttrs w)), scanItems.eq_def (.cons k v rest)]
      show (if k = kAttrs ∨ k = kDataset then _ else _) = (if k = kAttrs ∨ k = kDataset then _ else _)
      rw [ih]

theorem getItem_setAttrs (d : Dict) (w : Val) {k : Str} (hk : k ≠ kAttrs) (ks : List Str) (b : Bool) :
    getItem (d.set kAttrs w) (k :: ks) b = getItem d (k :: ks) b := by
  have hg : (d.set kAttrs w).get? k = d.get? k := by rw [get?_set, if_neg (Ne.symm hk)]
  have hh : (d.set kAttrs w).has k = d.has k := by rw [Dict.has, Dict.has, hg]
  have hf : follow (.dict (d.set kAttrs w)) (k :: ks) = follow (.dict d) (k :: ks) := by
    rw [follow, follow, Val.index, Val.index, hg]
  rw [getItem, getItem, hh, hf, scanItems_setAttrs]

theorem erase_set (d : Dict) {q k : Str} (h : q ≠ k) (w : Val) : (d.set k w).erase q = (d.erase q).set k w := by
  induction d using Dict.rec (motive_1 := fun _ => True) with
  | leaf => trivial
  | dict => trivial
  | nil => simp only [Dict.set, Dict.erase, if_neg (Ne.symm h)]
  | cons k' v rest _ ih =>
    rw [Dict.set]
    by_cases h1 : k' = k
    · subst h1
      rw [if_pos rfl, Dict.erase, if_neg (Ne.symm h), Dict.erase, if_neg (Ne.symm h), Dict.set, if_pos rfl]
    · rw [if_neg h1, Dict.erase]
      by_cases h2 : k' = q
      · rw [if_pos h2, ih, Dict.erase, if_pos h2]
      · rw [if_neg h2, ih, Dict.erase, if_neg h2, Dict.set, if_neg h1]

theorem set_set (d : Dict) {q k : Str} (h : q ≠ k) (v w : Val) (hk : (d.get? k).isSome) :
    (d.set q v).set k w = (d.set k w).set q v := by
  induction d using Dict.rec (motive_1 := fun _ => True) with
  | leaf => trivial
  | dict => trivial
  | nil => exact absurd hk (by simp [Dict.get?])
  | cons k' v' rest _ ih =>
    rw [Dict.get?] at hk
    rw [Dict.set]
    by_cases h1 : k' = q
    · subst h1
      rw [if_pos rfl, Dict.set, if_neg h, Dict.set, if_neg h, Dict.set, if_pos rfl]
    · rw [if_neg h1, Dict.set]
      by_cases h2 : k' = k
      · rw [if_pos h2]
        conv_rhs => rw [Dict.set, if_pos h2, Dict.set, if_neg h1]
      · rw [if_neg h2] at hk ⊢
        rw [ih hk]
        conv_rhs => rw [Dict.set, if_neg h2, Dict.set, if_neg h1]

theorem get?_setDatasetName (d : Dict) (n : Str) {k : Str} (hk : k ≠ kAttrs) : (setDatasetName d n).get? k = d.get? k := by
  unfold setDatasetName
  split
  · rw [get?_set, if_neg (Ne.symm hk)]
  · rfl

theorem dropLogs_setDatasetName (d : Dict) (n : Str) : dropLogs (setDatasetName d n) = setDatasetName (dropLogs d) n := by
  have hg : (dropLogs d).get? kAttrs = d.get? kAttrs := by
    rw [dropLogs, get?_erase, if_neg (by decide), get?_erase, if_neg (by decide)]
  unfold setDatasetName
  rw [hg]
  split
  · rw [dropLogs, erase_set _ (by decide), erase_set _ (by decide)]; rfl
  · rfl

theorem getItem_setDatasetName (d : Dict) (n : Str) {k : Str} (hk : k ≠ kAttrs) (ks : List Str) (b : Bool) :
    getItem (setDatasetName d n) (k :: ks) b = getItem d (k :: ks) b := by
  unfold setDatasetName
  split
  · exact getItem_setAttrs d _ hk ks b
  · rfl

/-- The name of the data set does not change what is found. -/
theorem nxGet_setDatasetName (d : Dict) (n key : Str) (b : Bool) (hk : (splitChar '/' (specialKey key b)).head? ≠ some kAttrs) :
    (nxGet (setDatasetName d n) key b).1 = (nxGet d key b).1 := by
  rw [nxGet, nxGet, dropLogs_setDatasetName]
  cases hs : splitChar '/' (specialKey key b) with
  | nil =>
    rw [getItem, getItem]
    unfold setDatasetName
    split
    · exact scanItems_setAttrs _ _ _ _
    · rfl
  | cons k ks =>
    rw [hs] at hk
    exact getItem_setDatasetName _ n (fun e => hk (by rw [e]; rfl)) ks b

theorem set_setDatasetName (d : Dict) (n : Str) {k : Str} (hk : k ≠ kAttrs) (v : Val) :
    setDatasetName (d.set k v) n = (setDatasetName d n).set k v := by
  unfold setDatasetName
  rw [get?_set, if_neg hk]
  split
  · rename_i a ha
    exact set_set d hk v _ (by rw [ha]; rfl)
  · rfl

theorem groupOf_setDatasetName (d : Dict) (n : Str) {k : Str} (hk : k ≠ kAttrs) : groupOf (setDatasetName d n) k = groupOf d k := by
  rw [groupOf, groupOf, get?_setDatasetName d n hk]

theorem map_bind {α β γ : Type} (x : Py α) (f : α → Py β) (g : β → γ) : (x >>= f).map g = x >>= fun a => (f a).map g := by
  cases x <;> rfl

theorem datasetNames_setDatasetName (L : List Str) (d : Dict) (n : Str) :
    datasetNames L (setDatasetName d n) = (datasetNames L d).map fun nd => (nd.1, setDatasetName nd.2 n) := by
  have hm : ∀ (e mon : Dict), dropMonitorData (setDatasetName e n) mon =
      (dropMonitorData e mon).map fun x => (x.1, setDatasetName x.2 n) := by
    intro e mon
    rw [dropMonitorData, dropMonitorData, nxGet_setDatasetName _ _ _ _ (by decide), map_bind]
    refine congrArg _ (funext fun o => ?_)
    cases o with
    | none => rfl
    | some v => rw [if_pos (by rfl), if_pos (by rfl), ← set_setDatasetName _ _ (by decide)]; rfl
  rw [datasetNames, datasetNames, nxGet_setDatasetName _ _ _ _ (by decide), dropLogs_setDatasetName]
  simp only [map_bind, groupOf_setDatasetName _ _ (show "instrument".toList ≠ kAttrs by decide),
    groupOf_setDatasetName _ _ (show "monitor".toList ≠ kAttrs by decide), hm]
  refine congrArg _ (funext fun o => congrArg _ (funext fun n' => congrArg _ (funext fun i => congrArg _ (funext fun a =>
    congrArg _ (funext fun mon => ?_)))))
  cases dropMonitorData (dropLogs d) mon with
  | error e => rfl
  | ok x =>
    show (namesIn L n' x.1 >>= fun b => groupOf (setDatasetName x.2 n) "sample".toList >>= _) = _
    rw [groupOf_setDatasetName _ _ (by decide)]
    rfl

theorem columnsLoop_setDatasetName (d : Dict) (n : Str) : ∀ (names : List Str) (acc : List (Str × Option Val)),
    (∀ k ∈ names, (splitChar '/' (specialKey k false)).head? ≠ some kAttrs) →
    columnsLoop (setDatasetName d n) names acc = columnsLoop d names acc
  | [], _, _ => rfl
  | k :: rest, acc, h => by
    rw [columnsLoop, columnsLoop, nxGet_setDatasetName _ _ _ _ (h k List.mem_cons_self)]
    refine congrArg _ (funext fun v => ?_)
    exact columnsLoop_setDatasetName d n rest _ fun k' hk' => h k' (List.mem_cons_of_mem _ hk')

/-! ## Scans -/

section
variable {iso : Str → Py Str} {logs : List (Str × LogVal)} {p : Pieces}

/-- The path of a listed name does not start in the attributes. -/
theorem named_head {k : Str} (hk : Named logs p.md k) : (splitChar '/' (specialKey k false)).head? ≠ some kAttrs := by
  have hnum : ∀ (q : Str) (_ : q ∈ numNames) (i : ℕ),
      (splitChar '/' (specialKey (withNumber q i) false)).head? ≠ some kAttrs := by
    intro q hq i
    rw [← suffixed_eq]
    have hn : ∀ s ∈ ["detector".toList, "monitor".toList, "sample".toList], suffixed q i ≠ s := by
      intro s hs e
      exact ((show ∀ s ∈ ["detector".toList, "monitor".toList, "sample".toList], NotNumbered s by decide) s hs).ne hq i e.symm
    have hsl : '/' ∉ suffixed q i := by
      rw [suffixed, List.mem_append, List.mem_append]
      have hs : ∀ q ∈ numNames, '/' ∉ q := by decide
      rintro ((h | h) | h)
      · exact hs q hq h
      · exact absurd h (by decide)
      · obtain ⟨_, h2, _⟩ := decStr_spec i
        exact absurd (List.all_eq_true.1 h2 _ h) (by decide)
    rw [specialKey, if_neg (by simp), if_neg (hn _ (by decide)), if_neg (hn _ (by decide)), if_neg (hn _ (by decide)),
      splitChar_plain hsl]
    intro e
    exact (numbered_plain hq i).1 (Option.some.inj e)
  rcases hk with ⟨c, int, qs, hc, _⟩ | hk
  · cases hc with
    | same hc => exact (show ∀ c ∈ Spec.sameName, (splitChar '/' (specialKey c false)).head? ≠ some kAttrs by decide +kernel) _ hc
    | renamed hc => exact (show ∀ c ∈ Spec.renamed, (splitChar '/' (specialKey c.2 false)).head? ≠ some kAttrs by decide +kernel) _ hc
    | detector => decide
    | point => decide
    | time _ => decide
    | mcu _ => decide
    | monitor _ => decide
    | detectors _ _ => exact hnum _ (by decide) _
    | times _ _ _ => exact hnum _ (by decide) _
    | mcus _ _ _ => exact hnum _ (by decide) _
    | monitors _ _ _ => exact hnum _ (by decide) _
  · exact (show ∀ k ∈ headerVectors, (splitChar '/' (specialKey k false)).head? ≠ some kAttrs by decide +kernel) _ hk

/-- The name of the data set changes nothing else in a scan. -/
theorem Made.newScan_named (h : Made iso logs p) (L : List Str) (sn n : Str) :
    newScan L sn (setDatasetName p.entry n) =
      (newScan L sn p.entry).map fun s => { s with entry := setDatasetName s.entry n } := by
  rw [newScan, newScan, datasetNames_setDatasetName]
  cases hd : datasetNames L p.entry with
  | error e => rfl
  | ok nd =>
    have hheads : ∀ k ∈ nd.1, (splitChar '/' (specialKey k false)).head? ≠ some kAttrs := by
      intro k hk
      have hfine : NameFine p.md := by
        intro t ht
        by_contra hb
        rw [h.bad_names ht (by simpa using hb)] at hd
        exact absurd hd (by simp)
      cases hpt : colOf logs "Pt.".toList with
      | none => rw [h.no_names hpt] at hd; exact absurd hd (by simp)
      | some qs =>
        obtain ⟨l, hl, hmem⟩ := h.names hfine L hpt
        rw [hl] at hd
        obtain rfl := Except.ok.inj hd
        exact named_head (h.named ((hmem k).1 hk))
    show (columnsLoop (setDatasetName nd.2 n) nd.1 []).map _ = ((columnsLoop nd.2 nd.1 []).map _).map _
    rw [columnsLoop_setDatasetName _ _ _ _ hheads, dropLogs_setDatasetName]
    cases columnsLoop nd.2 nd.1 [] <;> rfl

end

end Tavi
