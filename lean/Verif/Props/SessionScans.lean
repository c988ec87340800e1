import Verif.Model.SessionScans
import Verif.Props.TaviFile
import Verif.Props.Convert
import Verif.Props.ConvPool

/-!
# The scans of a session, one by one and in groups (C101)
-/

namespace Tavi

open Spec

/-! ## The words of the property -/

namespace Spec

/-- Two lists with the same keys in the same order, and related values. -/
def Alike {β γ : Type} (R : Str → β → γ → Prop) (l : List (Str × β)) (l' : List (Str × γ)) : Prop :=
  List.Forall₂ (fun a b => a.1 = b.1 ∧ R a.1 a.2 b.2) l l'

/-- The entry has no link to the data of the monitor. -/
def NoLink (d : Dict) : Prop := (nxGet d "monitor/data".toList false).1 = .ok none

/-- The entry without this link. -/
def unlinked (d : Dict) : Dict :=
  match d.get? "monitor".toList with
  | some (.dict mon) => d.set "monitor".toList (.dict (mon.erase "data".toList))
  | _ => d

/-- If there is a link to the data of the monitor, it does not lead to the points of the scan. -/
def Steady (d : Dict) : Prop := NoLink d ∨ (nxGet (unlinked d) "Pt.".toList false).1 = (nxGet d "Pt.".toList false).1

/-- A dataset of a file, as it is read: data and attributes, nothing else. -/
def DataOnly (d : Dict) : Prop := ∀ kv ∈ items d, kv.1 = "attrs".toList ∨ kv.1 = "dataset".toList

/-- This holds for all entries of the session. -/
def AllSteady (data : TaviData) : Prop := ∀ e n d, filed data e n = some d → Steady d

end Spec

/-! ## Lists of entries -/

/-- The same experiments with the same scans in the same order; some scans may have been made. -/
def Looked (lists : Str → List Str) (data data' : TaviData) : Prop :=
  Alike (fun e => Alike fun _ d d' => d' = d ∨ d' = afterScan (lists e) d) data data'

section
variable {β γ : Type} {R : Str → β → γ → Prop} {l : List (Str × β)} {l' : List (Str × γ)}

theorem alike_lookup (h : Alike R l l') (k : Str) :
    (lookupKey k l = none ∧ lookupKey k l' = none) ∨ ∃ a b, lookupKey k l = some a ∧ lookupKey k l' = some b ∧ R k a b := by
  induction h with
  | nil => exact .inl ⟨rfl, rfl⟩
  | @cons a b l l' hab _ ih =>
    obtain ⟨ka, va⟩ := a
    obtain ⟨kb, vb⟩ := b
    obtain ⟨hk, hv⟩ := hab
    dsimp only at hk hv
    subst hk
    rw [lookupKey, lookupKey]
    by_cases hk : ka = k
    · rw [if_pos hk, if_pos hk]
      subst hk
      exact .inr ⟨va, vb, rfl, rfl, hv⟩
    · rw [if_neg hk, if_neg hk]
      exact ih

theorem alike_set (h : Alike R l l') {k : Str} {a : β} {v : γ} (ha : lookupKey k l = some a) (hv : R k a v) :
    Alike R l (assocSet l' k v) := by
  induction h with
  | nil => cases ha
  | @cons x y l l' hxy hl ih =>
    obtain ⟨ka, va⟩ := x
    obtain ⟨kb, vb⟩ := y
    obtain ⟨hk, hv'⟩ := hxy
    dsimp only at hk hv'
    subst hk
    rw [lookupKey] at ha
    rw [assocSet]
    by_cases hk : ka = k
    · rw [if_pos hk] at ha ⊢
      subst hk
      obtain rfl := Option.some.inj ha
      exact .cons ⟨rfl, hv⟩ hl
    · rw [if_neg hk] at ha ⊢
      exact .cons ⟨rfl, hv'⟩ (ih ha)

theorem alike_refl {R : Str → β → β → Prop} (h : ∀ k b, R k b b) (l : List (Str × β)) : Alike R l l := by
  induction l with
  | nil => exact .nil
  | cons a l ih => exact .cons ⟨rfl, h _ _⟩ ih

end

section
variable {lists : Str → List Str} {data data' : TaviData}

theorem looked_refl (data : TaviData) : Looked lists data data := alike_refl (fun _ => alike_refl fun _ _ => .inl rfl) _

theorem looked_filed (h : Looked lists data data') (e n : Str) :
    (filed data e n = none ∧ filed data' e n = none) ∨
      ∃ d d', filed data e n = some d ∧ filed data' e n = some d' ∧ (d' = d ∨ d' = afterScan (lists e) d) := by
  unfold Spec.filed
  rcases alike_lookup h e with ⟨h1, h2⟩ | ⟨a, b, h1, h2, hab⟩
  · rw [h1, h2]; exact .inl ⟨rfl, rfl⟩
  · rw [h1, h2, Option.bind_some, Option.bind_some]
    exact alike_lookup hab n

theorem looked_put (h : Looked lists data data') {e n : Str} {d d' : Dict} (hd : filed data e n = some d)
    (hd' : d' = d ∨ d' = afterScan (lists e) d) : Looked lists data (putEntry data' e n d') := by
  unfold Spec.filed at hd
  unfold putEntry
  rcases alike_lookup h e with ⟨h1, h2⟩ | ⟨a, b, h1, h2, hab⟩
  · rw [h2]; exact h
  · rw [h2]
    rw [h1, Option.bind_some] at hd
    exact alike_set h h1 (alike_set hab hd hd')

theorem looked_first (h : Looked lists data data') : firstExp data' = firstExp data := by
  cases h with
  | nil => rfl
  | cons hab _ => rw [firstExp, firstExp, hab.1]

end

/-! ## Making a scan -/

theorem drop_drop (d : Dict) : dropLogs (dropLogs d) = dropLogs d := by
  rw [dropLogs_eq, dropLogs_eq, nexusPart_nexusPart]

theorem drop_set (d : Dict) (v : Val) : dropLogs (d.set "monitor".toList v) = (dropLogs d).set "monitor".toList v := by
  unfold dropLogs
  rw [erase_set _ (by decide), erase_set _ (by decide)]

theorem drop_unlinked (d : Dict) : dropLogs (unlinked d) = unlinked (dropLogs d) := by
  unfold unlinked
  rw [drop_get d (by decide) (by decide)]
  cases d.get? "monitor".toList with
  | none => rfl
  | some v => cases v with
    | leaf => rfl
    | dict mon => exact drop_set _ _

theorem newScan_drop (L : List Str) (n : Str) (d : Dict) : newScan L n (dropLogs d) = newScan L n d := by
  unfold newScan datasetNames
  rw [nxGet_drop, drop_drop]

theorem monitor_drop (L : List Str) (d : Dict) : monitorDropped L (dropLogs d) = monitorDropped L d := by
  unfold monitorDropped
  rw [nxGet_drop, drop_drop]

/-- Nothing but the logs is gone, or also a link. -/
theorem monitor_cases {L : List Str} {d : Dict} {md : Dict × Dict} (h : monitorDropped L d = .ok md) :
    md.2 = dropLogs d ∨ (¬ NoLink d ∧ ∃ mon, (dropLogs d).get? "monitor".toList = some (.dict mon) ∧ md.1 = mon.erase "data".toList ∧
      md.2 = (dropLogs d).set "monitor".toList (.dict (mon.erase "data".toList)) ∧ md.2 = dropLogs (unlinked d)) := by
  unfold monitorDropped at h
  obtain ⟨_, -, h⟩ := py_bind_eq_ok.1 h
  obtain ⟨_, -, h⟩ := py_bind_eq_ok.1 h
  obtain ⟨_, -, h⟩ := py_bind_eq_ok.1 h
  obtain ⟨_, -, h⟩ := py_bind_eq_ok.1 h
  obtain ⟨mon, hmon, h⟩ := py_bind_eq_ok.1 h
  unfold dropMonitorData at h
  obtain ⟨o, ho, h⟩ := py_bind_eq_ok.1 h
  rw [nxGet_drop] at ho
  have hget : (dropLogs d).get? "monitor".toList = some (.dict mon) := by
    unfold groupOf at hmon
    obtain ⟨v, hv, hmon⟩ := py_bind_eq_ok.1 hmon
    rw [need_eq_ok] at hv
    cases v with
    | leaf => cases hmon
    | dict e => obtain rfl := Except.ok.inj hmon; exact hv
  cases o with
  | none => exact .inl (by rw [← Except.ok.inj h])
  | some v =>
    obtain rfl := Except.ok.inj h
    refine .inr ⟨fun hn => ?_, mon, hget, rfl, rfl, ?_⟩
    · unfold NoLink at hn
      rw [hn] at ho
      cases Except.ok.inj ho
    · rw [drop_unlinked, unlinked, hget]

theorem groupOf_set {d : Dict} {k : Str} (v : Val) (hk : k ≠ "monitor".toList) : groupOf (d.set "monitor".toList v) k = groupOf d k := by
  unfold groupOf
  rw [get?_set, if_neg (Ne.symm hk)]

/-- Making a scan again is like making it for the first time. -/
theorem scan_again (L : List Str) (n : Str) {d : Dict} (h : Steady d) :
    newScan L n (afterScan L d) = newScan L n d ∧ afterScan L (afterScan L d) = afterScan L d := by
  have hdrop : afterScan L (dropLogs d) = afterScan L d := by
    unfold afterScan
    rw [monitor_drop, drop_drop]
  have easy : afterScan L d = dropLogs d →
      newScan L n (afterScan L d) = newScan L n d ∧ afterScan L (afterScan L d) = afterScan L d := by
    intro e
    rw [e, newScan_drop, hdrop, e]
    exact ⟨rfl, rfl⟩
  cases hm : monitorDropped L d with
  | error e => exact easy (by rw [afterScan, hm])
  | ok md =>
    have ha : afterScan L d = md.2 := by rw [afterScan, hm]
    rcases monitor_cases hm with h1 | ⟨hno, mon, h1, h2, h3, h4⟩
    · exact easy (ha.trans h1)
    · rcases h with h | hp
      · exact absurd h hno
      · have hl' : (nxGet md.2 "monitor/data".toList false).1 = .ok none := by
          rw [h3]
          show getItem (dropLogs _) (splitChar '/' (specialKey "monitor/data".toList false)) false = _
          rw [show splitChar '/' (specialKey "monitor/data".toList false) = ["monitor".toList, "data".toList] by decide, drop_set]
          exact getItem_miss (by rw [get?_set, if_pos rfl]) (by rw [get?_erase, if_pos rfl])
        have hp' : (nxGet md.2 "Pt.".toList false).1 = (nxGet d "Pt.".toList false).1 := by rw [h4, nxGet_drop, hp]
        have hd : dropLogs md.2 = md.2 := by rw [h4, drop_drop]
        have hi : groupOf md.2 "instrument".toList = groupOf (dropLogs d) "instrument".toList := by
          rw [h3]; exact groupOf_set _ (by decide)
        have hg : groupOf md.2 "monitor".toList = .ok (mon.erase "data".toList) := by
          rw [h3, groupOf, get?_set, if_pos rfl]; rfl
        have hm' : ∀ x, dropMonitorData md.2 x = .ok (x, md.2) := by
          intro x
          rw [dropMonitorData, hl']
          rfl
        have hx := hm
        unfold monitorDropped at hx
        obtain ⟨pts, k1, hx⟩ := py_bind_eq_ok.1 hx
        obtain ⟨num, k2, hx⟩ := py_bind_eq_ok.1 hx
        obtain ⟨inst, k3, hx⟩ := py_bind_eq_ok.1 hx
        obtain ⟨names, k4, hx⟩ := py_bind_eq_ok.1 hx
        obtain ⟨mon', k5, hx⟩ := py_bind_eq_ok.1 hx
        constructor
        · rw [ha]
          unfold newScan
          congr 1
          rw [datasetNames, hp', hd, hi, hg, k1, py_bind_ok, k2, py_bind_ok, k3, py_bind_ok, k4, py_bind_ok, py_bind_ok, hm', py_bind_ok]
          rw [datasetNames, k1, py_bind_ok, k2, py_bind_ok, k3, py_bind_ok, k4, py_bind_ok, k5, py_bind_ok, hx, py_bind_ok, h2]
        · rw [ha]
          have : monitorDropped L md.2 = .ok (mon.erase "data".toList, md.2) := by
            rw [monitorDropped, hp', hd, hi, hg, k1, py_bind_ok, k2, py_bind_ok, k3, py_bind_ok, k4, py_bind_ok, py_bind_ok, hm']
          rw [afterScan, this]

theorem scan_skipped {k : Str} (h : k = kAttrs ∨ k = kDataset) (v : Val) (rest : Dict) (parts : List Str) (b : Bool) :
    scanItems (.cons k v rest) parts b = scanItems rest parts b := by
  rw [scanItems.eq_def]
  exact if_pos h

theorem scan_leaf (k : Str) (x : Leaf) (rest : Dict) (parts : List Str) (b : Bool) :
    scanItems (.cons k (.leaf x) rest) parts b = scanItems rest parts b := by
  rw [scanItems.eq_def]
  show (if k = kAttrs ∨ k = kDataset then scanItems rest parts b else scanItems rest parts b) = _
  rw [ite_self]

/-- The value found first, or that of the rest. -/
def firstFound (a b : Py (Option Val)) : Py (Option Val) :=
  match a with
  | .error err => .error err
  | .ok (some x) => .ok (some x)
  | .ok none => b

theorem scan_group {k : Str} (h : ¬ (k = kAttrs ∨ k = kDataset)) (e rest : Dict) (parts : List Str) (b : Bool) :
    scanItems (.cons k (.dict e) rest) parts b = firstFound (getItem e parts b) (scanItems rest parts b) := by
  rw [scanItems.eq_def]
  refine (if_neg h).trans ?_
  dsimp only
  unfold firstFound
  generalize getItem e parts b = g
  cases g with
  | error err => rfl
  | ok o => cases o <;> rfl

theorem scan_inert {e : Dict} (h : DataOnly e) (parts : List Str) (b : Bool) : scanItems e parts b = .ok none := by
  induction e using Dict.rec (motive_1 := fun _ => True) with
  | leaf => trivial
  | dict => trivial
  | nil => rw [scanItems]
  | cons k v rest _ ih =>
    rw [scan_skipped (h (k, v) (by rw [items]; exact List.mem_cons_self))]
    exact ih fun kv hkv => h kv (by rw [items]; exact List.mem_cons_of_mem _ hkv)

theorem inert_has {e : Dict} (h : DataOnly e) {k : Str} (h1 : k ≠ "attrs".toList) (h2 : k ≠ "dataset".toList) : e.has k = false := by
  rw [Dict.has]
  cases hg : e.get? k with
  | none => rfl
  | some v => rcases h _ (mem_items_of_get? hg) with h | h
              · exact absurd h h1
              · exact absurd h h2

theorem get_keys {d : Dict} {k : Str} {v : Val} (h : d.get? k = some v) : k ∈ d.keys := by
  induction d using Dict.rec (motive_1 := fun _ => True) with
  | leaf => trivial
  | dict => trivial
  | nil => cases h
  | cons k' v' rest _ ih =>
    rw [Dict.get?] at h
    rw [Dict.keys]
    by_cases hk : k' = k
    · rw [hk]; exact List.mem_cons_self
    · rw [if_neg hk] at h
      exact List.mem_cons_of_mem _ (ih h)

theorem get_nodup {d : Dict} (hn : d.keys.Nodup) {k : Str} {v : Val} (h : (k, v) ∈ items d) : d.get? k = some v := by
  induction d using Dict.rec (motive_1 := fun _ => True) with
  | leaf => trivial
  | dict => trivial
  | nil => cases h
  | cons k' v' rest _ ih =>
    rw [Dict.keys, List.nodup_cons] at hn
    rw [items] at h
    rw [Dict.get?]
    rcases List.mem_cons.1 h with h | h
    · obtain ⟨rfl, rfl⟩ := Prod.mk.inj h
      rw [if_pos rfl]
    · have hg := ih hn.2 h
      rw [if_neg, hg]
      rintro rfl
      exact hn.1 (get_keys hg)

theorem scan_erase {mon : Dict} (h : ∀ v, ("data".toList, v) ∈ items mon → ∃ e, v = .dict e ∧ DataOnly e) :
    scanItems (mon.erase "data".toList) ["Pt.".toList] false = scanItems mon ["Pt.".toList] false := by
  induction mon using Dict.rec (motive_1 := fun _ => True) with
  | leaf => trivial
  | dict => trivial
  | nil => rfl
  | cons k v rest _ ih =>
    have ih' := ih fun w hw => h w (by rw [items]; exact List.mem_cons_of_mem _ hw)
    rw [Dict.erase]
    by_cases hk : k = "data".toList
    · subst hk
      obtain ⟨e, rfl, he⟩ := h v (by rw [items]; exact List.mem_cons_self)
      rw [if_pos rfl, ih', scan_group (by decide), getItem, if_neg (by rw [inert_has he (by decide) (by decide)]; simp), scan_inert he]
      rfl
    · rw [if_neg hk]
      by_cases hk' : k = kAttrs ∨ k = kDataset
      · rw [scan_skipped hk', scan_skipped hk', ih']
      · cases v with
        | leaf x => rw [scan_leaf, scan_leaf, ih']
        | dict e => rw [scan_group hk', scan_group hk', ih']

theorem scan_set {d : Dict} {mon mon' : Dict} (hd : d.get? "monitor".toList = some (.dict mon))
    (h : getItem mon' ["Pt.".toList] false = getItem mon ["Pt.".toList] false) :
    scanItems (d.set "monitor".toList (.dict mon')) ["Pt.".toList] false = scanItems d ["Pt.".toList] false := by
  induction d using Dict.rec (motive_1 := fun _ => True) with
  | leaf => trivial
  | dict => trivial
  | nil => cases hd
  | cons k v rest _ ih =>
    rw [Dict.get?] at hd
    rw [Dict.set]
    by_cases hk : k = "monitor".toList
    · subst hk
      rw [if_pos rfl] at hd
      obtain rfl := Option.some.inj hd
      rw [if_pos rfl, scan_group (by decide), scan_group (by decide), h]
    · rw [if_neg hk] at hd ⊢
      by_cases hk' : k = kAttrs ∨ k = kDataset
      · rw [scan_skipped hk', scan_skipped hk', ih hd]
      · cases v with
        | leaf x => rw [scan_leaf, scan_leaf, ih hd]
        | dict e => rw [scan_group hk', scan_group hk', ih hd]

/-- **C101**: an entry read from a file whose monitor has a link to a dataset is as good as one without. -/
theorem C101_linked {d mon e : Dict} (h1 : d.get? "monitor".toList = some (.dict mon)) (hn : mon.keys.Nodup)
    (h2 : mon.get? "data".toList = some (.dict e)) (he : DataOnly e) : Steady d := by
  refine .inr ?_
  have hd : (dropLogs d).get? "monitor".toList = some (.dict mon) := (drop_get d (by decide) (by decide)).trans h1
  have hu : dropLogs (unlinked d) = (dropLogs d).set "monitor".toList (.dict (mon.erase "data".toList)) := by
    rw [unlinked, h1]
    exact drop_set _ _
  have hmon : getItem (mon.erase "data".toList) ["Pt.".toList] false = getItem mon ["Pt.".toList] false := by
    have hg : (mon.erase "data".toList).get? "Pt.".toList = mon.get? "Pt.".toList := by rw [get?_erase, if_neg (by decide)]
    have hs := scan_erase (mon := mon) fun v hv => by
      rw [get_nodup hn hv] at h2
      exact ⟨e, Option.some.inj h2, he⟩
    rw [getItem, getItem, Dict.has, Dict.has, hg, hs, follow, follow, Val.index, Val.index, hg]
  show getItem (dropLogs (unlinked d)) ["Pt.".toList] false = getItem (dropLogs d) ["Pt.".toList] false
  rw [hu]
  have hg : ((dropLogs d).set "monitor".toList (.dict (mon.erase "data".toList))).get? "Pt.".toList = (dropLogs d).get? "Pt.".toList := by
    rw [get?_set, if_neg (by decide)]
  rw [getItem, getItem, Dict.has, Dict.has, hg, scan_set hd hmon, follow, follow, Val.index, Val.index, hg]

/-- The scan has the entry as it is in the session afterwards. -/
theorem scan_entry {L : List Str} {n : Str} {d : Dict} {s : ScanObj} (h : newScan L n d = .ok s) : s.entry = dropLogs (afterScan L d) := by
  unfold newScan at h
  obtain ⟨nd, hnd, h⟩ := py_bind_eq_ok.1 h
  obtain ⟨data, -, rfl⟩ := map_eq_ok.1 h
  unfold datasetNames at hnd
  obtain ⟨pts, h1, hnd⟩ := py_bind_eq_ok.1 hnd
  obtain ⟨k, h2, hnd⟩ := py_bind_eq_ok.1 hnd
  obtain ⟨inst, h3, hnd⟩ := py_bind_eq_ok.1 hnd
  obtain ⟨a, h4, hnd⟩ := py_bind_eq_ok.1 hnd
  obtain ⟨mon, h5, hnd⟩ := py_bind_eq_ok.1 hnd
  obtain ⟨md, h6, hnd⟩ := py_bind_eq_ok.1 hnd
  obtain ⟨b, -, hnd⟩ := py_bind_eq_ok.1 hnd
  obtain ⟨samp, -, hnd⟩ := py_bind_eq_ok.1 hnd
  obtain ⟨c, -, hnd⟩ := py_bind_eq_ok.1 hnd
  obtain rfl := Except.ok.inj hnd
  have : monitorDropped L d = .ok md := by
    unfold monitorDropped
    rw [h1, py_bind_ok, h2, py_bind_ok, h3, py_bind_ok, h4, py_bind_ok, h5, py_bind_ok, h6]
  unfold afterScan
  rw [this]

/-! ## Requests -/

section
variable {lists : Str → List Str} {data data' : TaviData}

theorem scanAt_looked (hn : AllSteady data) (h : Looked lists data data') (p : Str × Str) :
    (scanAt lists data' p).1 = (scanAt lists data p).1 ∧ Looked lists data (scanAt lists data' p).2 := by
  unfold scanAt
  rcases looked_filed h p.1 p.2 with ⟨h1, h2⟩ | ⟨d, d', h1, h2, hd⟩
  · unfold Spec.filed at h1 h2
    rw [h1, h2]
    exact ⟨rfl, h⟩
  · obtain ⟨k1, k2⟩ := scan_again (lists p.1) p.2 (hn _ _ _ h1)
    have hput : Looked lists data (putEntry data' p.1 p.2 (afterScan (lists p.1) d')) := by
      refine looked_put h h1 (.inr ?_)
      rcases hd with rfl | rfl
      · rfl
      · exact k2
    unfold Spec.filed at h1 h2
    rw [h1, h2]
    refine ⟨?_, hput⟩
    rcases hd with rfl | rfl
    · rfl
    · exact k1

theorem getScanObj_looked (hn : AllSteady data) (h : Looked lists data data') (r : ScanRef) :
    (getScanObj lists data' r).1 = (getScanObj lists data r).1 ∧ Looked lists data (getScanObj lists data' r).2 := by
  have hp : getPath data' r = getPath data r := by
    cases r with
    | tup e n => rfl
    | num n => unfold getPath; rw [looked_first h]
    | other => rfl
  unfold getScanObj
  rw [hp]
  cases getPath data r with
  | error e => exact ⟨rfl, h⟩
  | ok p => exact scanAt_looked hn h p

theorem scansAt_looked (hn : AllSteady data) (h : Looked lists data data') (ps : List (Str × Str)) :
    (scansAt lists data' ps).1 = ps.mapM (fun p => (scanAt lists data p).1) ∧ Looked lists data (scansAt lists data' ps).2 := by
  induction ps generalizing data' with
  | nil => exact ⟨rfl, h⟩
  | cons p ps ih =>
    obtain ⟨h1, h2⟩ := scanAt_looked (lists := lists) hn h p
    rw [List.mapM_cons, ← h1]
    unfold scansAt
    cases hs : scanAt lists data' p with
    | mk r st =>
      rw [hs] at h2
      cases r with
      | error e => exact ⟨rfl, h2⟩
      | ok s =>
        obtain ⟨k1, k2⟩ := ih h2
        refine ⟨?_, k2⟩
        dsimp only
        rw [k1, py_bind_ok]
        cases ps.mapM (fun p => (scanAt lists data p).1) <;> rfl

theorem groupScans_looked (hn : AllSteady data) (h : Looked lists data data') (l : List ScanRef) :
    (groupScans lists data' l).1 = (groupScans lists data l).1 ∧ Looked lists data (groupScans lists data' l).2 := by
  unfold groupScans
  rw [looked_first h]
  cases firstExp data >>= fun first => l.mapM (refPath first) with
  | error e => exact ⟨rfl, h⟩
  | ok ps =>
    obtain ⟨h1, h2⟩ := scansAt_looked (lists := lists) hn h ps
    obtain ⟨h3, -⟩ := scansAt_looked (lists := lists) hn (looked_refl data) ps
    exact ⟨h1.trans h3.symm, h2⟩

theorem answer_looked (hn : AllSteady data) (h : Looked lists data data') (q : ScanRequest) :
    (q.answer lists data').1 = (q.answer lists data).1 ∧ Looked lists data (q.answer lists data').2 := by
  cases q with
  | get r =>
    obtain ⟨h1, h2⟩ := getScanObj_looked (lists := lists) hn h r
    unfold ScanRequest.answer
    exact ⟨by dsimp only; rw [h1], h2⟩
  | group l => exact groupScans_looked hn h l

theorem requests_looked (hn : AllSteady data) (h : Looked lists data data') (l : List ScanRequest) : Looked lists data (afterRequests lists data' l) := by
  induction l generalizing data' with
  | nil => exact h
  | cons q l ih => exact ih (answer_looked hn h q).2

/-- **C101**: whatever was asked of a session before, and whether it raised or not, a request is answered as in the beginning: with the
same scans, or the same exception. -/
theorem C101_history (hn : AllSteady data) (l : List ScanRequest) (q : ScanRequest) :
    (q.answer lists (afterRequests lists data l)).1 = (q.answer lists data).1 :=
  (answer_looked hn (requests_looked hn (looked_refl data) l) q).1

/-- **C101**: a scan asked for is the one filed under its experiment and name; a number alone means the first experiment. -/
theorem C101_get (data : TaviData) : 
    (∀ e n, (getScanObj lists data (.tup e n)).1 = match filed data e (scanName n) with
      | some d => newScan (lists e) (scanName n) d
      | none => .error .keyError) ∧
    (∀ e scans rest n, data = (e, scans) :: rest → (getScanObj lists data (.num n)).1 = (getScanObj lists data (.tup e n)).1) ∧
    (data = [] → ∀ n, (getScanObj lists data (.num n)).1 = .error .stopIteration) ∧
    (getScanObj lists data .other).1 = .error .valueError := by
  refine ⟨fun e n => ?_, fun e scans rest n h => ?_, fun h n => ?_, rfl⟩
  · show (scanAt lists data (e, scanName n)).1 = _
    unfold scanAt Spec.filed
    dsimp only
    cases (lookupKey e data).bind (lookupKey (scanName n)) <;> rfl
  · subst h; rfl
  · subst h; rfl

/-- **C101**: the scans of a group are those asked for, in order, each as asking for it alone gives it; the first that cannot be given
decides the exception. -/
theorem C101_group (hn : AllSteady data) (hne : data ≠ []) (l : List ScanRef) (hl : ScanRef.other ∉ l) :
    (groupScans lists data l).1 = l.mapM fun r => (getScanObj lists data r).1 := by
  obtain ⟨⟨e, scans⟩, rest, rfl⟩ := List.exists_cons_of_ne_nil hne
  have hp : ∀ l : List ScanRef, ScanRef.other ∉ l → ∃ ps, l.mapM (refPath e) = .ok ps ∧
      ps.mapM (fun p => (scanAt lists ((e, scans) :: rest) p).1) = l.mapM fun r => (getScanObj lists ((e, scans) :: rest) r).1 := by
    intro l
    induction l with
    | nil => exact fun _ => ⟨[], rfl, rfl⟩
    | cons r l ih =>
      intro hl
      obtain ⟨ps, h1, h2⟩ := ih fun h => hl (List.mem_cons_of_mem _ h)
      cases r with
      | other => exact absurd List.mem_cons_self hl
      | num n => exact ⟨(e, scanName n) :: ps, by rw [List.mapM_cons, h1]; rfl, by rw [List.mapM_cons, List.mapM_cons, h2]; rfl⟩
      | tup e' n => exact ⟨(e', scanName n) :: ps, by rw [List.mapM_cons, h1]; rfl, by rw [List.mapM_cons, List.mapM_cons, h2]; rfl⟩
  obtain ⟨ps, h1, h2⟩ := hp l hl
  unfold groupScans
  rw [firstExp, py_bind_ok, h1]
  exact (scansAt_looked hn (looked_refl _) ps).1.trans h2

/-- **C101**: no group of an empty session, and none with anything but numbers and pairs; nothing is looked up then. -/
theorem C101_group_refused (l : List ScanRef) :
    groupScans lists [] l = (.error .stopIteration, []) ∧
    (data ≠ [] → ScanRef.other ∈ l → groupScans lists data l = (.error .valueError, data)) := by
  refine ⟨rfl, fun hne hl => ?_⟩
  obtain ⟨⟨e, scans⟩, rest, rfl⟩ := List.exists_cons_of_ne_nil hne
  have : l.mapM (refPath e) = .error .valueError := by
    induction l with
    | nil => cases hl
    | cons r l ih =>
      rw [List.mapM_cons]
      cases r with
      | other => rfl
      | num n =>
        rw [ih (by rcases List.mem_cons.1 hl with h | h; cases h; exact h)]
        rfl
      | tup e' n =>
        rw [ih (by rcases List.mem_cons.1 hl with h | h; cases h; exact h)]
        rfl
  unfold groupScans
  rw [firstExp, py_bind_ok, this]

end

/-- **C101**: the data of a group are those of its scans, in order; the first scan that has none decides the exception. -/
theorem C101_data (fmt : Val → Str) (scans : List ScanObj) (xa ya : Option Str) (normTo : Option (ℝ × Str)) (grid tol : Option RebinArg) :
    (∀ l, groupData fmt scans xa ya normTo grid tol = .ok l ↔
      List.Forall₂ (fun s r => s.getData fmt xa ya normTo grid tol = .ok r) scans l) ∧
    ∀ e, groupData fmt scans xa ya normTo grid tol = .error e ↔ ∃ pre s post, scans = pre ++ s :: post ∧
      (∀ t ∈ pre, ∃ r, t.getData fmt xa ya normTo grid tol = .ok r) ∧ s.getData fmt xa ya normTo grid tol = .error e := by
  unfold groupData
  generalize hf : (fun s : ScanObj => s.getData fmt xa ya normTo grid tol) = f
  have hfs : ∀ s : ScanObj, s.getData fmt xa ya normTo grid tol = f s := fun s => by rw [← hf]
  simp only [hfs]
  refine ⟨fun l => ⟨mapM_ok_inv, fun h => ?_⟩, fun e => ?_⟩
  · induction h with
    | nil => rfl
    | cons h _ ih => rw [List.mapM_cons, h, ih]; rfl
  · induction scans with
    | nil =>
      refine ⟨fun h => (nomatch h), ?_⟩
      rintro ⟨pre, s, post, h, -⟩
      simp at h
    | cons s scans ih =>
      rw [List.mapM_cons]
      cases hs : f s with
      | error e' =>
        constructor
        · intro h
          obtain rfl := Except.error.inj h
          exact ⟨[], s, scans, rfl, by simp, hs⟩
        · rintro ⟨pre, s', post, h, hpre, he⟩
          cases pre with
          | nil =>
            obtain ⟨rfl, rfl⟩ := List.cons.inj h
            rw [← hs, he]
            rfl
          | cons t pre =>
            obtain ⟨rfl, rfl⟩ := List.cons.inj h
            obtain ⟨r, hr⟩ := hpre s (by simp)
            rw [hs] at hr
            cases hr
      | ok r =>
        rw [py_bind_ok]
        have : (do let rs ← scans.mapM f; pure (r :: rs) : Py (List LabelledData)) = .error e ↔ scans.mapM f = .error e := by
          cases scans.mapM f with
          | error e' => exact ⟨fun h => h, fun h => h⟩
          | ok rs => exact ⟨fun h => (nomatch h), fun h => (nomatch h)⟩
        rw [this, ih]
        constructor
        · rintro ⟨pre, s', post, rfl, hpre, he⟩
          refine ⟨s :: pre, s', post, rfl, ?_, he⟩
          intro t ht
          rcases List.mem_cons.1 ht with rfl | ht
          · exact ⟨r, hs⟩
          · exact hpre t ht
        · rintro ⟨pre, s', post, h, hpre, he⟩
          cases pre with
          | nil =>
            obtain ⟨rfl, rfl⟩ := List.cons.inj h
            rw [hs] at he
            cases he
          | cons t pre =>
            obtain ⟨rfl, rfl⟩ := List.cons.inj h
            exact ⟨pre, s', post, rfl, fun t ht => hpre t (by simp [ht]), he⟩

/-! ## Sessions of data files -/

theorem made_noLink {iso : Str → Py Str} {logs : List (Str × LogVal)} {p : Pieces} (h : Made iso logs p) (ds : Str) :
    NoLink (setDatasetName p.entry ds) := by
  rw [NoLink, nxGet_setDatasetName _ _ _ _ (by decide), nxGet]
  show getItem (dropLogs p.entry) (splitChar '/' (specialKey "monitor/data".toList false)) false = _
  rw [show splitChar '/' (specialKey "monitor/data".toList false) = ["monitor".toList, "data".toList] by decide]
  exact getItem_miss (entry_mon p) (mon_no_data h)

theorem fileToNx_read {iso : Str → Py Str} {xml : List Str → Option Str} {fs : FS} {dir : List Str} {file : Str} {d : Dict}
    (h : fileToNx iso xml fs dir file = .ok d) : ∃ f, readSpiceDatafile fs (dir ++ [file]) = .ok f := by
  rw [fileToNx] at h
  obtain ⟨logs, h, -⟩ := py_bind_eq_ok.1 h
  rw [createSpicelogs] at h
  obtain ⟨f, h, -⟩ := py_bind_eq_ok.1 h
  exact ⟨f, h⟩

theorem exists_last (P : Str → Prop) : ∀ L : List Str, (∃ a ∈ L, P a) → ∃ a ∈ L, P a ∧ ∀ b ∈ L, P b → b ≤ a
  | [], h => by obtain ⟨_, h, _⟩ := h; cases h
  | x :: L, h => by
    by_cases hL : ∃ a ∈ L, P a
    · obtain ⟨a, h1, h2, h3⟩ := exists_last P L hL
      by_cases hx : P x ∧ a ≤ x
      · refine ⟨x, List.mem_cons_self, hx.1, fun b hb hP => ?_⟩
        rcases List.mem_cons.1 hb with rfl | hb
        · exact le_rfl
        · exact (h3 b hb hP).trans hx.2
      · refine ⟨a, List.mem_cons_of_mem _ h1, h2, fun b hb hP => ?_⟩
        rcases List.mem_cons.1 hb with rfl | hb
        · exact (le_total b a).resolve_right fun hle => hx ⟨hP, hle⟩
        · exact h3 b hb hP
    · obtain ⟨a, ha, hP⟩ := h
      rcases List.mem_cons.1 ha with rfl | ha
      · refine ⟨a, List.mem_cons_self, hP, fun b hb hP' => ?_⟩
        rcases List.mem_cons.1 hb with rfl | hb
        · exact le_rfl
        · exact absurd ⟨b, hb, hP'⟩ hL
      · exact absurd ⟨a, ha, hP⟩ hL

/-- Saved and read, an entry has no link to the data of the monitor. -/
theorem fromFile_noLink {iso : Str → Py Str} {xml : List Str → Option Str} {fs : FS} {e n : Str} (hn : n ≠ "attrs".toList) {d : Dict}
    {s : ScanObj} (h : FromFile iso xml fs n d s) {f : NxFile} {a : List (Str × Leaf)} {ch : H5s} (hf : f.tree = .node none a ch)
    (hnew : ch.get? n = none) (hl : ∀ l ∈ f.links, l.entry ≠ n) (hc : f.Clean) {f' : NxFile} (h1 : toNexusIn (expPath e) d n f = .ok f')
    {x : Dict} (h2 : (readMembers f'.resolved.children).get? n = some (.dict x)) : NoLink x := by
  obtain ⟨dir, file, sf, ds, d₀, qs, ⟨p1, u, v, p2, p3, p4, p5, p6⟩, hload, hd₀, hd⟩ := h
  obtain ⟨logs, p, hp, -, h3, -, h5⟩ := loaded_in hload hn p1 p2 p3 p4 p5 p6
  obtain rfl := Except.ok.inj (hd₀.symm.trans h3)
  have hD : d = setDatasetName p.entry ds ∨ d = dropLogs (setDatasetName p.entry ds) := by
    rw [hd]
    cases qs with
    | nil => exact .inl rfl
    | cons q qs => exact .inr (by rw [afterReads_cons, dropLogs_eq])
  obtain ⟨f₂, x₂, s', g1, -, -, g4, -, -, g7, -⟩ := h5 (expPath e) d f a ch hD hf hnew hl hc
  obtain rfl := Except.ok.inj (h1.symm.trans g1)
  rw [h2] at g4
  have := Option.some.inj g4
  injection this with this
  subst this
  have := made_noLink hp ds
  unfold NoLink at this ⊢
  rw [g7.look _ (by decide) (by decide), this]
  rfl

/-- Entries of one experiment are filed under it. -/
theorem loadData_one {ds : Str} (es : List (Str × Dict)) (hne : es ≠ []) (hnd : (es.map Prod.fst).Nodup)
    (hexp : ∀ nd ∈ es, expId nd.2 = .ok ds) : loadData es = .ok [(ds, es)] := by
  have step : ∀ (rest pre : List (Str × Dict)), pre ≠ [] → ((pre ++ rest).map Prod.fst).Nodup → (∀ nd ∈ rest, expId nd.2 = .ok ds) →
      rest.foldlM (fun acc nd => expId nd.2 >>= fun e => Except.ok (fileEntry acc e nd.1 nd.2)) [(ds, pre)] = .ok [(ds, pre ++ rest)] := by
    intro rest
    induction rest with
    | nil => intro pre _ _ _; rw [List.append_nil]; rfl
    | cons nd rest ih =>
      intro pre hpre hn he
      rw [List.foldlM_cons, he nd List.mem_cons_self, py_bind_ok, py_bind_ok]
      obtain ⟨x, xs, rfl⟩ := List.exists_cons_of_ne_nil hpre
      have hnew : nd.1 ∉ (x :: xs).map Prod.fst := by
        intro hm
        rw [List.map_append, List.map_cons] at hn
        exact (List.nodup_append.1 hn).2.2 _ hm _ List.mem_cons_self rfl
      have : fileEntry [(ds, x :: xs)] ds nd.1 nd.2 = [(ds, (x :: xs) ++ [nd])] := by
        rw [fileEntry, lookupKey, if_pos rfl]
        dsimp only
        rw [assocSet_new hnew, assocSet, if_pos rfl]
      rw [this, ih _ (by simp) (by rw [List.append_assoc]; exact hn) fun nd' h => he nd' (List.mem_cons_of_mem _ h), List.append_assoc]
      rfl
  obtain ⟨x, xs, rfl⟩ := List.exists_cons_of_ne_nil hne
  rw [loadData, List.foldlM_cons, hexp x List.mem_cons_self, py_bind_ok, py_bind_ok]
  exact step xs [x] (by simp) hnd fun nd h => hexp nd (List.mem_cons_of_mem _ h)

/-- **C101**: after a folder of data files was loaded into a session, and whatever was asked since, a scan asked for by number is the
scan of the (last) file of that number; a number alone is enough if the session was empty. A number without a file is refused with
`KeyError`. -/
theorem C101_folder (iso : Str → Py Str) (xml : List Str → Option Str) (fs : FS) (folder listing : List Str)
    (hc : Conventional listing) (es : List (Str × Dict)) (h : fromSpice iso xml fs folder listing none = .ok es)
    (before : TaviData) (hb : AllSteady before) :
    ∃ ds data, (∃ first i x n f, first ∈ listing ∧ ScanFile first i x n ∧ (∀ file ∈ listing, ".dat".toList <:+ file → first ≤ file) ∧
        readSpiceDatafile fs (folder ++ ["Datafiles".toList] ++ [first]) = .ok f ∧ ds = datasetOf f i x) ∧
      loadScans before es = .ok data ∧
      ∀ (lists : Str → List Str), lists ds = ["divergence_x".toList] → ∀ (l : List ScanRequest) (n : ℕ) (r : ScanRef),
        (r = .tup ds n ∨ (before = [] ∧ r = .num n)) →
        (∀ s, ((ScanRequest.get r).answer lists (afterRequests lists data l)).1 = .ok [s] ↔
          ∃ file i x f, file ∈ listing ∧ ScanFile file i x (scanName n) ∧
            (∀ file' ∈ listing, ∀ i' x', ScanFile file' i' x' (scanName n) → file' ≤ file) ∧
            Loaded iso xml fs (folder ++ ["Datafiles".toList]) file f ds (scanName n) s) ∧
        ((∀ file ∈ listing, ∀ i x, ¬ ScanFile file i x (scanName n)) →
          ((ScanRequest.get r).answer lists (afterRequests lists data l)).1 = .error .keyError) := by
  obtain ⟨hnd, hall, first, i0, x0, n0, f0, hf1, hf2, hf3, hf4, hes⟩ := C78_folder iso xml fs folder listing hc es h
  set ds := datasetOf f0 i0 x0 with hds
  have hentry : ∀ n e, (n, e) ∈ es → ∃ file i x f d, file ∈ listing ∧ ScanFile file i x n ∧
      (∀ file' ∈ listing, ∀ i' x', ScanFile file' i' x' n → file' ≤ file) ∧
      readSpiceDatafile fs (folder ++ ["Datafiles".toList] ++ [file]) = .ok f ∧
      fileToNx iso xml fs (folder ++ ["Datafiles".toList]) file = .ok d ∧ e = setDatasetName d ds ∧ expId e = .ok ds ∧ NoLink e := by
    intro n e he
    obtain ⟨file, i, x, d, k1, k2, k3, k4, rfl⟩ := (hes n e).1 he
    obtain ⟨f, hf⟩ := fileToNx_read k4
    obtain ⟨logs, p, -, hp, rfl, -⟩ := fileToNx_inv hf k4
    refine ⟨file, i, x, f, _, k1, k2, k3, hf, k4, rfl, ?_, made_noLink hp ds⟩
    rw [expId, get?_setDatasetName_attrs (by rw [← entry_attrs p, entry_get _ (by decide) (by decide)]) ds, need_some, py_bind_ok,
      Val.index, get?_set, if_pos rfl, need_some, py_bind_ok]
  have hlast : ∀ n, (∃ file ∈ listing, ∃ i x, ScanFile file i x n) → ∃ e, (n, e) ∈ es := by
    intro n hex
    obtain ⟨file, hfile, ⟨i, x, hs⟩, hmax⟩ := exists_last (fun file => ∃ i x, ScanFile file i x n) listing hex
    obtain ⟨d, hd⟩ := hall file hfile hs.suffix
    exact ⟨_, (hes n _).2 ⟨file, i, x, d, hfile, hs, fun file' hf' i' x' hs' => hmax file' hf' ⟨i', x', hs'⟩, hd, rfl⟩⟩
  have hne : es ≠ [] := by
    rintro rfl
    obtain ⟨e, he⟩ := hlast n0 ⟨first, hf1, i0, x0, hf2⟩
    cases he
  have hload : loadScans before es = .ok (assocSet before ds es) := by
    rw [loadScans, loadData_one es hne hnd fun nd hm => by
      obtain ⟨-, -, -, -, -, -, -, -, -, -, -, h1, -⟩ := hentry nd.1 nd.2 hm
      exact h1]
    rfl
  have hfiled : ∀ e n, filed (assocSet before ds es) e n = if e = ds then lookupKey n es else filed before e n := by
    intro e n
    rw [filed, lookupKey_assocSet]
    split
    · rfl
    · rfl
  have hsteady : AllSteady (assocSet before ds es) := by
    intro e n d hd
    rw [hfiled] at hd
    split at hd
    · obtain ⟨-, -, -, -, -, -, -, -, -, -, -, -, h1⟩ := hentry n d ((lookupKey_mem hnd).1 hd)
      exact .inl h1
    · exact hb e n d hd
  refine ⟨ds, _, ⟨first, i0, x0, n0, f0, hf1, hf2, hf3, hf4, rfl⟩, hload, fun lists hlists l n r hr => ?_⟩
  rw [C101_history hsteady]
  have hget : (getScanObj lists (assocSet before ds es) r).1 = match lookupKey (scanName n) es with
      | some d => newScan ["divergence_x".toList] (scanName n) d
      | none => .error .keyError := by
    have h1 := (C101_get (lists := lists) (assocSet before ds es)).1 ds n
    rw [hfiled, if_pos rfl, hlists] at h1
    rcases hr with rfl | ⟨rfl, rfl⟩
    · exact h1
    · rw [(C101_get (lists := lists) (assocSet [] ds es)).2.1 ds es [] n rfl]
      exact h1
  have hans : ∀ s, ((ScanRequest.get r).answer lists (assocSet before ds es)).1 = .ok [s] ↔
      (getScanObj lists (assocSet before ds es) r).1 = .ok s := by
    intro s
    show (getScanObj lists (assocSet before ds es) r).1.map (fun s => [s]) = _ ↔ _
    cases (getScanObj lists (assocSet before ds es) r).1 with
    | error e => exact ⟨fun h => (nomatch h), fun h => (nomatch h)⟩
    | ok t =>
      constructor
      · intro h
        have := Except.ok.inj h
        rw [List.singleton_inj.1 this]
      · intro h
        rw [Except.ok.inj h]
        rfl
  refine ⟨fun s => ?_, fun hno => ?_⟩
  · rw [hans, hget]
    constructor
    · intro hs
      cases hl : lookupKey (scanName n) es with
      | none => rw [hl] at hs; cases hs
      | some e =>
        rw [hl] at hs
        obtain ⟨file, i, x, f, d, k1, k2, k3, k4, k5, rfl, -⟩ := hentry _ _ ((lookupKey_mem hnd).1 hl)
        exact ⟨file, i, x, f, k1, k2, k3, k4, d, k5, hs⟩
    · rintro ⟨file, i, x, f, k1, k2, k3, -, d, k5, hs⟩
      rw [(lookupKey_mem hnd).2 ((hes _ _).2 ⟨file, i, x, d, k1, k2, k3, k5, rfl⟩)]
      exact hs
  · have hl : lookupKey (scanName n) es = none := by
      cases hl : lookupKey (scanName n) es with
      | none => rfl
      | some e =>
        obtain ⟨file, i, x, f, d, k1, k2, -⟩ := hentry _ _ ((lookupKey_mem hnd).1 hl)
        exact absurd k2 (hno file k1 i x)
    show (getScanObj lists (assocSet before ds es) r).1.map (fun s => [s]) = _
    rw [hget, hl]
    rfl

/-- **C101**: a session of scans loaded from data files, whatever was looked at, that is saved and opened: whatever is asked of the
opened session, a scan asked for is that of its data file. -/
theorem C101_saved (iso : Str → Py Str) (xml : List Str → Option Str) (fs : FS) (data : TaviData) (hn : Once data)
    (hs : ∀ e n d, filed data e n = some d → n ≠ "attrs".toList ∧ ∃ s, FromFile iso xml fs n d s) (path : Str) :
    ∃ t, saveFile (some path) data = .ok t ∧ ∀ (l : List ScanRequest) (e : Str) (n : ℕ),
      (filed data e (scanName n) = none →
        ((ScanRequest.get (.tup e n)).answer (fun _ => []) (afterRequests (fun _ => []) (openTavi t) l)).1 = .error .keyError) ∧
      ∀ d s, filed data e (scanName n) = some d → FromFile iso xml fs (scanName n) d s → ∃ s',
        ((ScanRequest.get (.tup e n)).answer (fun _ => []) (afterRequests (fun _ => []) (openTavi t) l)).1 = .ok [s'] ∧ SameScan s s' := by
  obtain ⟨t, h1, h2⟩ := saved_ok
    (P := fun _ n d d' => NoLink d' ∧ ∀ s, FromFile iso xml fs n d s → ∃ s', newScan [] n d' = .ok s' ∧ SameScan s s') data hn
    (fun e n d h f a ch hf hnew hl hc => by
      obtain ⟨hn', s, hs⟩ := hs e n d h
      obtain ⟨f', x, s', g1, g2, g3, g4, g5, g6⟩ := fromFile_writes (e := e) hn' hs hf hnew hl hc
      refine ⟨f', x, g1, g2, g3, readEntries_get g4, ?_, fun s₂ hs₂ => ?_⟩
      · exact fromFile_noLink (e := e) hn' hs hf hnew hl hc g1 g4
      · obtain ⟨f₂, x₂, s₂', k1, _, _, k4, k5, k6⟩ := fromFile_writes (e := e) hn' hs₂ hf hnew hl hc
        obtain rfl := Except.ok.inj (g1.symm.trans k1)
        rw [g4] at k4
        have := Option.some.inj k4
        injection this with this
        subst this
        exact ⟨s₂', k5, k6⟩) path
  have hsteady : AllSteady (openTavi t) := by
    intro e n d' hd'
    cases hd : filed data e n with
    | none => rw [(h2 e n).1 hd] at hd'; cases hd'
    | some d =>
      obtain ⟨d₂, k1, k2, -⟩ := (h2 e n).2 d hd
      rw [hd'] at k1
      obtain rfl := Option.some.inj k1
      exact .inl k2
  refine ⟨t, h1, fun l e n => ?_⟩
  rw [C101_history hsteady]
  have hget := (C101_get (lists := fun _ => []) (openTavi t)).1 e n
  have hans : ((ScanRequest.get (.tup e n)).answer (fun _ => []) (openTavi t)).1 =
      (getScanObj (fun _ => []) (openTavi t) (.tup e n)).1.map fun s => [s] := rfl
  rw [hans, hget]
  refine ⟨fun hno => ?_, fun d s hd hff => ?_⟩
  · rw [(h2 e _).1 hno]; rfl
  · obtain ⟨d', k1, -, k2⟩ := (h2 e _).2 d hd
    obtain ⟨s', k3, k4⟩ := k2 s hff
    rw [k1]
    dsimp only
    rw [k3]
    exact ⟨s', rfl, k4⟩

end Tavi
