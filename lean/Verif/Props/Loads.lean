import Verif.Props.FileColumns

/-!
# Files that can be loaded, and an example (C75)
-/

namespace Tavi

open Spec

/-! ## When an entry is built -/

theorem addMembers_ok {fs : List Field} (h : ∀ f ∈ fs, ∃ o, f.2 = .ok o) (d : Dict) : ∃ d', addMembers fs d = .ok d' := by
  induction fs generalizing d with
  | nil => exact ⟨d, rfl⟩
  | cons f fs ih =>
    obtain ⟨o, ho⟩ := h f List.mem_cons_self
    obtain ⟨d', hd'⟩ := ih (fun g hg => h g (List.mem_cons_of_mem _ hg)) (addDataset d f.1 o)
    exact ⟨d', by rw [addMembers, ho]; exact hd'⟩

/-- The columns stored as integers: counts and point numbers. -/
def CountName (k : Str) : Prop :=
  k ∈ ["Pt.".toList, "detector".toList, "monitor".toList] ∨
    ∃ i, k = suffixed "detector".toList i ∨ k = suffixed "monitor".toList i

/-- The columns of counts hold finite numbers only. -/
def Finite (logs : List (Str × LogVal)) : Prop := ∀ k l, (k, LogVal.col l) ∈ logs → CountName k → none ∉ l

theorem all_some {α : Type} {l : List (Option α)} (h : none ∉ l) : ∃ qs : List α, l = qs.map some := by
  induction l with
  | nil => exact ⟨[], rfl⟩
  | cons o l ih =>
    rw [List.mem_cons, not_or] at h
    obtain ⟨qs, rfl⟩ := ih h.2
    cases o with
    | none => exact absurd rfl h.1
    | some q => exact ⟨q :: qs, rfl⟩

theorem lookupKey_some_mem {β : Type} {l : List (Str × β)} {k : Str} {v : β} (h : lookupKey k l = some v) : (k, v) ∈ l := by
  induction l with
  | nil => exact absurd h (by simp [lookupKey])
  | cons kv l ih =>
    obtain ⟨k', v'⟩ := kv
    rw [lookupKey] at h
    split at h
    · rename_i hk
      rw [hk, Option.some.inj h]; exact List.mem_cons_self
    · exact List.mem_cons_of_mem _ (ih h)

section
variable {logs : List (Str × LogVal)} {md : List (Str × MetaVal)}

theorem floatCol_ok (c : Str) (a : List (Str × Str)) : ∃ o, dsFloatCol (colOf logs c) a = .ok o := by
  cases colOf logs c with
  | none => exact ⟨_, rfl⟩
  | some l => exact ⟨_, rfl⟩

theorem intCol_ok (h : Finite logs) {c : Str} (hc : CountName c) (a : List (Str × Str)) :
    ∃ o, dsIntCol (colOf logs c) a = .ok o := by
  unfold colOf
  split
  · rename_i l hl
    obtain ⟨qs, rfl⟩ := all_some (h c l (lookupKey_some_mem hl) hc)
    exact ⟨_, by rw [dsIntCol, mapM_need]; rfl⟩
  · exact ⟨_, rfl⟩

theorem ownCols_ok (names : List Str) (a : List (Str × Str)) :
    ∀ f ∈ names.map (ownCol logs a), ∃ o, f.2 = .ok o := by
  intro f hf
  obtain ⟨c, _, rfl⟩ := List.mem_map.1 hf
  exact floatCol_ok c a

theorem logDict_ok : ∀ l : List (Str × LogVal), ∃ d, logDict l = .ok d
  | [] => ⟨_, rfl⟩
  | (k, .col l) :: rest => by
    obtain ⟨d, hd⟩ := logDict_ok rest
    exact ⟨_, by rw [logDict, hd]; rfl⟩
  | (k, .meta_ m) :: rest => logDict_ok rest
  | (k, .ub p c) :: rest => logDict_ok rest

/-- What a header must hold so that the entry can be built. -/
structure Complete (iso : Str → Py Str) (logs : List (Str × LogVal)) (md : List (Str × MetaVal)) : Prop where
  users : ∃ s, metaText md "users".toList = .ok s
  sense : ∃ s : Str, metaText md "sense".toList = .ok s ∧ 3 ≤ s.length
  coll : ∃ s l, metaText md "collimation".toList = .ok s ∧ (splitChar '-' s).mapM pyFloat = .ok l
  numbers : ∀ k ∈ ["latticeconstants".toList, "samplemosaic".toList, "ubmatrix".toList, "plane_normal".toList], ∀ s,
    textOf md k = some s → s ≠ [] → ∃ r, recastStr s true = .ok r
  normal : ∀ s, textOf md "preset_type".toList = some "normal".toList → textOf md "preset_value".toList = some s → s ≠ [] →
    ∃ r, recastStr s true = .ok r
  countfile : Polarised md → (∃ s, textOf md "countfile".toList = some s) ∧ ∀ i < nDet logs,
    (∃ s, nameAt md "norm_channels".toList i = .ok s) ∧ (∃ q, numAt md "norm_vals".toList i = .ok q) ∧
    ∃ s, nameAt md "labels".toList i = .ok s
  start : ∃ t, iso (textOrNone md "date".toList ++ " ".toList ++ textOrNone md "time".toList) = .ok t
  stop : ∀ s, textOf md "end_time".toList = some s → s ≠ [] → ∃ t, iso s = .ok t
  ub : ∀ v, lookupKey "ub_conf".toList logs = some v → ∃ a b, v = .ub a b

theorem floatText_ok {s : Option Str} (h : ∀ t, s = some t → t ≠ [] → ∃ r, recastStr t true = .ok r) (a : List (Str × Str)) :
    ∃ o, dsFloatText s a = .ok o := by
  unfold dsFloatText
  split
  · exact ⟨_, rfl⟩
  · exact ⟨_, rfl⟩
  · obtain ⟨r, hr⟩ := h _ rfl (by simp)
    exact ⟨_, by rw [hr]; rfl⟩

theorem dsDate_ok {iso : Str → Py Str} {s : Option Str} (h : ∀ t, s = some t → t ≠ [] → ∃ r, iso t = .ok r)
    (a : List (Str × Str)) : ∃ o, dsDate iso s a = .ok o := by
  unfold dsDate
  split
  · exact ⟨_, rfl⟩
  · exact ⟨_, rfl⟩
  · obtain ⟨r, hr⟩ := h _ rfl (by simp)
    exact ⟨_, by rw [hr]; rfl⟩

theorem senseAt_ok {s : Str} (h : metaText md "sense".toList = .ok s) {i : ℕ} (hi : i < s.length) :
    ∃ o, senseAt md i = .ok o := by
  rw [senseAt, h]
  show ∃ o, (need s[i]? .indexError).map _ = .ok o
  rw [List.getElem?_eq_getElem hi]
  exact ⟨_, rfl⟩

theorem lookupKey_erase {β : Type} (l : List (Str × β)) {k x : Str} (h : x ≠ k) : lookupKey x (assocErase l k) = lookupKey x l := by
  induction l with
  | nil => rfl
  | cons kv l ih =>
    obtain ⟨k', v⟩ := kv
    rw [assocErase] at ih ⊢
    by_cases hk : k' = k
    · rw [List.filter_cons_of_neg (by simp [hk]), ih, lookupKey, if_neg (by rw [hk]; exact Ne.symm h)]
    · rw [List.filter_cons_of_pos (by simp [hk]), lookupKey, ih, lookupKey]

theorem formatted_ok (hmd : lookupKey "metadata".toList logs = some (.meta_ md))
    (hub : ∀ v, lookupKey "ub_conf".toList logs = some v → ∃ a b, v = .ub a b) :
    ∃ g, formattedSpicelogs logs = .ok g ∧ ∀ x ∈ g.datasets, x ∈ logs := by
  cases hu : lookupKey "ub_conf".toList logs with
  | none =>
    refine ⟨_, by rw [formattedSpicelogs, hu]; show (need (lookupKey _ logs) _ >>= _) = _; rw [hmd]; rfl, ?_⟩
    exact fun x hx => (List.mem_filter.1 hx).1
  | some v =>
    obtain ⟨a, b, rfl⟩ := hub v hu
    refine ⟨_, by
      rw [formattedSpicelogs, hu]
      show (need (lookupKey _ (assocErase logs _)) _ >>= _) = _
      rw [lookupKey_erase _ (by decide), hmd]; rfl, ?_⟩
    exact fun x hx => (List.mem_filter.1 (List.mem_filter.1 hx).1).1

/-- A complete header and finite counts give an entry; other columns may hold anything. -/
theorem scanToNx_ok {iso : Str → Py Str} (hmd : lookupKey "metadata".toList logs = some (.meta_ md)) (hfin : Finite logs)
    (h : Complete iso logs md) : ∃ d, scanToNx iso logs = .ok d := by
  obtain ⟨us, husers⟩ := h.users
  obtain ⟨ss, hsense, hlen⟩ := h.sense
  obtain ⟨cs, cl, hcoll, hcl⟩ := h.coll
  obtain ⟨user, e1⟩ : ∃ x, buildUser md = .ok x := ⟨_, by rw [buildUser, husers]; rfl⟩
  obtain ⟨src, e2⟩ : ∃ x, buildSource = .ok x := addMembers_ok (by simp) _
  obtain ⟨mono, e3⟩ : ∃ x, buildMono logs md = .ok x := by
    refine addMembers_ok ?_ _
    simp only [monoFields, List.forall_mem_cons, List.not_mem_nil, false_implies, implies_true, and_true]
    exact ⟨floatCol_ok _ _, ⟨_, rfl⟩, senseAt_ok hsense (by omega), floatCol_ok _ _, floatCol_ok _ _,
      floatCol_ok _ _, floatCol_ok _ _, floatCol_ok _ _, floatCol_ok _ _⟩
  obtain ⟨ana, e4⟩ : ∃ x, buildAna logs md = .ok x := by
    refine addMembers_ok (forall_mem_append' ?_ (ownCols_ok _ _)) _
    simp only [List.forall_mem_cons, List.not_mem_nil, false_implies, implies_true, and_true]
    exact ⟨floatCol_ok _ _, ⟨_, rfl⟩, senseAt_ok hsense (by omega), floatCol_ok _ _, floatCol_ok _ _,
      floatCol_ok _ _⟩
  obtain ⟨det, e5⟩ : ∃ x, buildDet logs = .ok x := by
    refine addMembers_ok ?_ _
    rw [detFields, List.forall_mem_cons]
    refine ⟨intCol_ok hfin (.inl (by decide)) _, fun f hf => ?_⟩
    obtain ⟨i, _, rfl⟩ := List.mem_map.1 hf
    exact intCol_ok hfin (.inr ⟨i, .inl rfl⟩) _
  obtain ⟨coll, e6⟩ : ∃ x, buildColl md = .ok x := by
    obtain ⟨x, hx⟩ := addMembers_ok (fs :=
      [("type".toList, .ok (dsText (some "Soller".toList) [])),
       ("divergence_x".toList, .ok (some (nxDs (reals cl)
        [("type".toList, "NX_ANGLE".toList), units "minutes of arc".toList])))]) (by simp)
      (nxEntry [("NX_class".toList, "NXcollimator".toList)])
    refine ⟨x, ?_⟩
    rw [buildColl, hcoll]
    show ((splitChar '-' cs).mapM pyFloat >>= _) = _
    rw [hcl]; exact hx
  obtain ⟨slits, e7⟩ : ∃ x, buildSlits logs = .ok x := addMembers_ok (ownCols_ok _ _) _
  obtain ⟨flip, e8⟩ : ∃ x, buildFlipper logs = .ok x := addMembers_ok (ownCols_ok _ _) _
  obtain ⟨goni, e9⟩ : ∃ x, buildGoni logs md = .ok x := by
    refine addMembers_ok ?_ _
    rw [List.forall_mem_cons]
    exact ⟨senseAt_ok hsense (by omega), ownCols_ok _ _⟩
  have hcols : ∀ f ∈ monitorCols logs, ∃ o, f.2 = .ok o := by
    simp only [monitorCols, List.forall_mem_cons, List.not_mem_nil, false_implies, implies_true, and_true]
    exact ⟨floatCol_ok _ _, intCol_ok hfin (.inl (by decide)) _, floatCol_ok _ _⟩
  obtain ⟨mon, e10⟩ : ∃ x, buildMonitor logs md = .ok x := by
    refine addMembers_ok ?_ _
    unfold monitorFields
    split
    · rename_i hn
      refine forall_mem_append' ?_ hcols
      simp only [List.forall_mem_cons, List.not_mem_nil, false_implies, implies_true, and_true]
      exact ⟨⟨_, rfl⟩, ⟨_, rfl⟩, floatText_ok (fun t ht hne => h.normal t hn ht hne) _⟩
    · split
      · rename_i hpol
        obtain ⟨⟨s, hs⟩, hch⟩ := h.countfile hpol
        refine forall_mem_append' ?_ ?_
        · simp only [List.forall_mem_cons, List.not_mem_nil, false_implies, implies_true, and_true]
          exact ⟨⟨_, rfl⟩, ⟨_, by rw [hs]; rfl⟩⟩
        · intro f hf
          obtain ⟨i, hi, hf⟩ := List.mem_flatMap.1 hf
          rw [mem_oneTo] at hi
          obtain ⟨⟨s1, h1⟩, ⟨q, h2⟩, s3, h3⟩ := hch (i - 1) (by omega)
          suffices hs : ∀ f ∈ channelFields logs md i, ∃ o, f.2 = .ok o from hs f hf
          simp only [channelFields, List.forall_mem_cons, List.not_mem_nil, false_implies, implies_true, and_true]
          exact ⟨⟨_, by rw [h1]; rfl⟩, ⟨_, by rw [h2]; rfl⟩, floatCol_ok _ _, intCol_ok hfin (.inr ⟨i, .inr rfl⟩) _,
            floatCol_ok _ _, ⟨_, by rw [h3]; rfl⟩⟩
      · exact hcols
  obtain ⟨samp, e11⟩ : ∃ x, buildSample logs md = .ok x := by
    refine addMembers_ok (forall_mem_append' (forall_mem_append' ?_ (ownCols_ok _ _)) (ownCols_ok _ _)) _
    simp only [List.forall_mem_cons, List.not_mem_nil, false_implies, implies_true, and_true]
    exact ⟨⟨_, rfl⟩, ⟨_, rfl⟩, floatText_ok (h.numbers _ (by decide)) _, floatCol_ok _ _, floatCol_ok _ _,
      floatCol_ok _ _, floatCol_ok _ _, floatCol_ok _ _, floatText_ok (h.numbers _ (by decide)) _,
      intCol_ok hfin (.inl (by decide)) _, floatText_ok (h.numbers _ (by decide)) _, floatText_ok (h.numbers _ (by decide)) _⟩
  obtain ⟨lg, e12⟩ : ∃ x, buildLogs logs = .ok x := by
    obtain ⟨g, hg, -⟩ := formatted_ok hmd h.ub
    obtain ⟨dd, hdd⟩ := logDict_ok g.datasets
    exact ⟨_, by rw [buildLogs, hg]; show (logDict g.datasets >>= _) = _; rw [hdd]; rfl⟩
  obtain ⟨start, e13⟩ := dsDate_ok (iso := iso)
    (s := some (textOrNone md "date".toList ++ " ".toList ++ textOrNone md "time".toList))
    (fun t ht _ => Option.some.inj ht ▸ h.start) [required]
  obtain ⟨stop, e14⟩ := dsDate_ok (iso := iso) (s := textOf md "end_time".toList) h.stop []
  refine ⟨assemble lg (buildData md) (dsText (textOf md "scan_title".toList) [required]) start stop
    (buildInstrument src mono coll ana det slits flip goni md) mon samp user, ?_⟩
  rw [scanToNx, hmd]
  show (buildUser md >>= _) = _
  rw [e1, py_bind_ok, e2, py_bind_ok, e3, py_bind_ok, e4, py_bind_ok, e5, py_bind_ok, e6, py_bind_ok, e7, py_bind_ok, e8,
    py_bind_ok, e9, py_bind_ok, e10, py_bind_ok, e11, py_bind_ok, e12, py_bind_ok, e13, py_bind_ok, e14, py_bind_ok]

end

end Tavi
