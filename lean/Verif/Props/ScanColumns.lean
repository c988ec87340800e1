import Verif.Props.DataNames

/-!
# The data of a scan: which names, which values (C76)
-/

namespace Tavi

open Spec

/-! ## All columns are equally long -/

theorem mem_assocUpdate_nil {β : Type} {e : List (Str × β)} {kv : Str × β} (h : kv ∈ assocUpdate [] e) : kv ∈ e := by
  obtain ⟨k, v⟩ := kv
  rcases mem_assocUpdate h with h | h
  · exact absurd h (by simp)
  · exact h

theorem dataDict_length {names : List Str} {rows : List (List (Option ℚ))} {d : List (Str × List (Option ℚ))}
    (hm : ∀ r ∈ rows, ∀ r' ∈ rows, r.length = r'.length) (h : dataDict names rows = some d) :
    ∃ m, ∀ kv ∈ d, kv.2.length = m := by
  match rows with
  | [] => exact absurd h (by simp [dataDict])
  | [r] =>
    rw [dataDict] at h
    obtain rfl := Option.some.inj h
    refine ⟨1, fun kv hkv => ?_⟩
    have := List.of_mem_zip (mem_assocUpdate_nil hkv)
    obtain ⟨x, _, hx⟩ := List.mem_map.1 this.2
    rw [← hx]; rfl
  | r :: r' :: rs =>
    rw [dataDict] at h
    · split at h
      · rename_i h1
        obtain rfl := Option.some.inj h
        refine ⟨1, fun kv hkv => ?_⟩
        have := List.of_mem_zip (mem_assocUpdate_nil hkv)
        obtain ⟨x, hx', hx⟩ := List.mem_map.1 this.2
        rw [← hx, hm x hx' r List.mem_cons_self, h1]
      · obtain rfl := Option.some.inj h
        refine ⟨(r :: r' :: rs).length, fun kv hkv => ?_⟩
        have := List.of_mem_zip (mem_assocUpdate_nil hkv)
        obtain ⟨j, _, hj⟩ := List.mem_map.1 this.2
        rw [← hj, List.length_map]
    · simp

theorem tableRows_length {content : List Str} {rows : List (List (Option ℚ))} (h : tableRows content = .ok rows) :
    ∀ r ∈ rows, ∀ r' ∈ rows, r.length = r'.length := by
  rw [tableRows] at h
  split at h
  · obtain rfl := Except.ok.inj h
    simp
  · rename_i r0 rs heq
    split at h
    · rename_i hall
      obtain rfl := Except.ok.inj h
      have h0 : ∀ r ∈ r0 :: rs, r.length = r0.length := by
        intro r hr
        rcases List.mem_cons.1 hr with rfl | hr
        · rfl
        · simpa using List.all_eq_true.1 hall r hr
      intro r hr r' hr'
      rw [h0 r hr, h0 r' hr']
    · exact absurd h (by simp)

theorem columns_length {fs : FS} {path : List Str} {f : SpiceFile} (h : readSpiceDatafile fs path = .ok f) :
    ∃ m, ∀ kv ∈ columns f, kv.2.length = m := by
  rw [readSpiceDatafile] at h
  obtain ⟨content, _, h⟩ := py_bind_eq_ok.1 h
  split at h
  · rw [readDatafile] at h
    obtain ⟨i, _, h⟩ := py_bind_eq_ok.1 h
    obtain ⟨nl, _, h⟩ := py_bind_eq_ok.1 h
    obtain ⟨mu, h1, h⟩ := py_bind_eq_ok.1 h
    obtain ⟨rows, hrows, h⟩ := py_bind_eq_ok.1 h
    obtain rfl := Except.ok.inj h
    unfold columns
    dsimp only
    cases hd : dataDict (splitWs (lstripChar '#' nl)) rows with
    | none => exact ⟨0, by simp⟩
    | some d => exact dataDict_length (tableRows_length (spiceRows_ok.1 hrows).1) hd
  · exact absurd h (by simp)

/-! ## Which datasets are listed -/

theorem strDict_ne_nxDs (a : List (Str × Str)) (x : Leaf) (b : List (Str × Str)) : strDict a ≠ nxDs x b := by
  intro h
  match a with
  | [] => exact absurd h (by simp [strDict, nxDs])
  | [kv] => exact absurd h (by simp [strDict, nxDs])
  | kv :: kv' :: a => exact absurd h (by simp [strDict, nxDs])

theorem nxDs_inj {x y : Leaf} {a b : List (Str × Str)} (h : nxDs x a = nxDs y b) : x = y := by
  simp only [nxDs, Dict.cons.injEq, Val.leaf.injEq] at h
  exact h.2.1

theorem colField_listed {int : Bool} {c : Option (List (Option ℚ))} {a : List (Str × Str)} {ds : Dict}
    (h : colField int c a = .ok (some ds)) : ∃ qs, c = some qs := by
  cases c with
  | none => rw [colField_none] at h; exact absurd (Except.ok.inj h) (by simp)
  | some l => exact ⟨l, rfl⟩

theorem text_not_listed {L : List Str} {n : ℕ} {k : Str} {s : Option Str} {a b : List (Str × Str)} {x : Leaf}
    (h : dsText s a = some (nxDs x b)) (hx : sizedArray L n k (.leaf x) = true) : False := by
  unfold dsText at h
  split at h
  · exact absurd h (by simp)
  · exact absurd h (by simp)
  · rw [← nxDs_inj (Option.some.inj h)] at hx
    exact absurd hx (by simp [sizedArray])

/-- Header entries that are vectors or lists. -/
def Spec.headerVectors : List Str :=
  ["unit_cell", "mosaic", "orientation_matrix", "plane_normal", "preset", "countfile", "divergence_x"].map String.toList

section
variable {iso : Str → Py Str} {logs : List (Str × LogVal)} {p : Pieces}

/-- The name belongs to a column of the file or to a vector of the header. -/
def Named (logs : List (Str × LogVal)) (md : List (Str × MetaVal)) (k : Str) : Prop :=
  (∃ (c : Str) (int : Bool) (qs : List (Option ℚ)), KnownColumn (Polarised md) (nDet logs) c k int ∧ colOf logs c = some qs) ∨
  k ∈ Spec.headerVectors

theorem listed_field {fs : List Field} {a : List (Str × Str)} {g : Dict} (hg : addMembers fs (nxEntry a) = .ok g)
    {L : List Str} {n : ℕ} {k : Str} (hk : Listed L n g k) : ∃ f ∈ fs, f.1 = k ∧ ∃ x b, f.2 = .ok (some (nxDs x b)) ∧
      sizedArray L n k (.leaf x) = true := by
  obtain ⟨x, b, hm, hx⟩ := hk
  rcases addMembers_items hg _ _ hm with h | ⟨ds, hds, hmem⟩
  · simp only [nxEntry, items, List.mem_singleton, Prod.mk.injEq, Val.dict.injEq] at h
    exact absurd h.2.symm (strDict_ne_nxDs _ _ _)
  · obtain rfl : nxDs x b = ds := by simpa using hds
    exact ⟨_, hmem, rfl, x, b, rfl, hx⟩

theorem named_same {md : List (Str × MetaVal)} {c : Str} {a : List (Str × Str)} {ds : Dict} (hc : c ∈ Spec.sameName)
    (h : dsFloatCol (colOf logs c) a = .ok (some ds)) : Named logs md c := by
  obtain ⟨qs, hqs⟩ := colField_listed (int := false) h
  exact .inl ⟨c, false, qs, .same hc, hqs⟩

theorem named_renamed {md : List (Str × MetaVal)} {c k : Str} {a : List (Str × Str)} {ds : Dict} (hc : (c, k) ∈ Spec.renamed)
    (h : dsFloatCol (colOf logs c) a = .ok (some ds)) : Named logs md k := by
  obtain ⟨qs, hqs⟩ := colField_listed (int := false) h
  exact .inl ⟨c, false, qs, .renamed hc, hqs⟩

theorem named_own {md : List (Str × MetaVal)} {names : List Str} (hn : ∀ c ∈ names, c ∈ Spec.sameName)
    {a : List (Str × Str)} {f : Field} (hf : f ∈ names.map (ownCol logs a)) {ds : Dict} (h : f.2 = .ok (some ds)) :
    Named logs md f.1 := by
  obtain ⟨c, hc, rfl⟩ := List.mem_map.1 hf
  exact named_same (hn c hc) h

theorem senseAt_text {md : List (Str × MetaVal)} {i : ℕ} {ds : Dict} (h : senseAt md i = .ok (some ds)) :
    ∃ s, dsText s [] = some ds := by
  rw [senseAt] at h
  obtain ⟨s, _, h⟩ := py_bind_eq_ok.1 h
  obtain ⟨c, _, h⟩ := map_eq_ok.1 h
  exact ⟨_, h⟩

theorem listed_mono (h : Made iso logs p) {L : List Str} {n : ℕ} {k : Str} (hk : Listed L n p.mono k) :
    Named logs p.md k := by
  obtain ⟨f, hf, rfl, x, b, hx, hs⟩ := listed_field h.hmono hk
  revert hx hs
  revert f
  simp only [monoFields, List.forall_mem_cons, List.not_mem_nil, false_implies, implies_true, and_true]
  refine ⟨fun hk hx hs => named_same (by decide) hx, fun hk hx hs => (text_not_listed (Except.ok.inj hx) hs).elim, fun hk hx hs => ?_,
    fun hk hx hs => named_same (by decide) hx, fun hk hx hs => named_same (by decide) hx,
    fun hk hx hs => named_same (by decide) hx, fun hk hx hs => named_same (by decide) hx,
    fun hk hx hs => named_same (by decide) hx, fun hk hx hs => named_same (by decide) hx⟩
  obtain ⟨s, hs'⟩ := senseAt_text hx
  exact (text_not_listed hs' hs).elim

theorem listed_ana (h : Made iso logs p) {L : List Str} {n : ℕ} {k : Str} (hk : Listed L n p.ana k) :
    Named logs p.md k := by
  obtain ⟨f, hf, rfl, x, b, hx, hs⟩ := listed_field h.hana hk
  clear hk
  rw [anaFields, List.mem_append] at hf
  rcases hf with hf | hf
  · revert hx hs
    revert f
    simp only [List.forall_mem_cons, List.not_mem_nil, false_implies, implies_true, and_true]
    refine ⟨fun hx hs => named_same (by decide) hx, fun hx hs => (text_not_listed (Except.ok.inj hx) hs).elim, fun hx hs => ?_,
      fun hx hs => named_same (by decide) hx, fun hx hs => named_same (by decide) hx,
      fun hx hs => named_same (by decide) hx⟩
    obtain ⟨s, hs'⟩ := senseAt_text hx
    exact (text_not_listed hs' hs).elim
  · exact named_own (show ∀ c ∈ focusNames, c ∈ Spec.sameName by decide +kernel) hf hx

theorem listed_src (h : Made iso logs p) {L : List Str} {n : ℕ} {k : Str} (hk : Listed L n p.src k) :
    Named logs p.md k := by
  obtain ⟨f, hf, rfl, x, b, hx, hs⟩ := listed_field h.hsrc hk
  clear hk
  revert hx hs
  revert f
  simp only [List.forall_mem_cons, List.not_mem_nil, false_implies, implies_true, and_true]
  exact ⟨fun hx hs => (text_not_listed (Except.ok.inj hx) hs).elim, fun hx hs => (text_not_listed (Except.ok.inj hx) hs).elim⟩

theorem listed_coll (h : Made iso logs p) {L : List Str} {n : ℕ} {k : Str} (hk : Listed L n p.coll k) :
    Named logs p.md k := by
  have h1 := h.hcoll
  rw [buildColl] at h1
  obtain ⟨s, _, h1⟩ := py_bind_eq_ok.1 h1
  obtain ⟨l, _, h1⟩ := py_bind_eq_ok.1 h1
  obtain ⟨f, hf, rfl, x, b, hx, hs⟩ := listed_field h1 hk
  clear hk
  revert hx hs
  revert f
  simp only [List.forall_mem_cons, List.not_mem_nil, false_implies, implies_true, and_true]
  exact ⟨fun hx hs => (text_not_listed (Except.ok.inj hx) hs).elim, fun hx hs => .inr (by decide)⟩

theorem listed_slits (h : Made iso logs p) {L : List Str} {n : ℕ} {k : Str} (hk : Listed L n p.slits k) :
    Named logs p.md k := by
  obtain ⟨f, hf, rfl, x, b, hx, hs⟩ := listed_field h.hslits hk
  exact named_own (show ∀ c ∈ slitNames, c ∈ Spec.sameName by decide +kernel) hf hx

theorem listed_flip (h : Made iso logs p) {L : List Str} {n : ℕ} {k : Str} (hk : Listed L n p.flip k) :
    Named logs p.md k := by
  obtain ⟨f, hf, rfl, x, b, hx, hs⟩ := listed_field h.hflip hk
  exact named_own (show ∀ c ∈ flipperNames, c ∈ Spec.sameName by decide +kernel) hf hx

theorem listed_goni (h : Made iso logs p) {L : List Str} {n : ℕ} {k : Str} (hk : Listed L n p.goni k) :
    Named logs p.md k := by
  obtain ⟨f, hf, rfl, x, b, hx, hs⟩ := listed_field h.hgoni hk
  rcases List.mem_cons.1 hf with rfl | hf
  · obtain ⟨s, hs'⟩ := senseAt_text hx
    exact (text_not_listed hs' hs).elim
  · exact named_own (show ∀ c ∈ goniNames, c ∈ Spec.sameName by decide +kernel) hf hx

theorem listed_samp (h : Made iso logs p) {L : List Str} {n : ℕ} {k : Str} (hk : Listed L n p.samp k) :
    Named logs p.md k := by
  obtain ⟨f, hf, rfl, x, b, hx, hs⟩ := listed_field h.hsamp hk
  clear hk
  rw [sampleFields, List.mem_append, List.mem_append] at hf
  rcases hf with (hf | hf) | hf
  · revert hx hs
    revert f
    simp only [List.forall_mem_cons, List.not_mem_nil, false_implies, implies_true, and_true]
    exact ⟨fun hx hs => (text_not_listed (Except.ok.inj hx) hs).elim, fun hx hs => (text_not_listed (Except.ok.inj hx) hs).elim,
      fun _ _ => .inr (by decide), fun hx _ => named_renamed (by decide) hx, fun hx _ => named_renamed (by decide) hx,
      fun hx _ => named_renamed (by decide) hx, fun hx _ => named_renamed (by decide) hx,
      fun hx _ => named_same (by decide) hx, fun _ _ => .inr (by decide), fun hx _ => by
        obtain ⟨qs, hqs⟩ := colField_listed (int := true) hx
        exact .inl ⟨_, true, qs, .point, hqs⟩, fun _ _ => .inr (by decide), fun _ _ => .inr (by decide)⟩
  · exact named_own (show ∀ c ∈ temperatureNames, c ∈ Spec.sameName by decide +kernel) hf hx
  · exact named_own (show ∀ c ∈ fieldNames, c ∈ Spec.sameName by decide +kernel) hf hx

theorem listed_det (h : Made iso logs p) {L : List Str} {n : ℕ} {k : Str} (hd : p.det.get? "data".toList = none)
    (hk : Listed L n p.det k) : Named logs p.md k := by
  have hk' := hk
  obtain ⟨f, hf, rfl, x, b, hx, hs⟩ := listed_field h.hdet hk
  rw [detFields, List.mem_cons] at hf
  rcases hf with rfl | hf
  · obtain ⟨x', b', hm, _⟩ := hk'
    rw [get?_of_mem h.flat_det.nodup hm] at hd
    exact absurd hd (by simp)
  · obtain ⟨i, hi, rfl⟩ := List.mem_map.1 hf
    rw [mem_oneTo] at hi
    obtain ⟨qs, hqs⟩ := colField_listed (int := true) hx
    refine .inl ⟨_, true, qs, ?_, hqs⟩
    dsimp only
    rw [suffixed_eq]
    exact .detectors hi.1 hi.2

theorem listed_cols {md : List (Str × MetaVal)} (hpol : ¬ Polarised md) {f : Field}
    (hf : f ∈ monitorCols logs) {ds : Dict} (hx : f.2 = .ok (some ds)) : Named logs md f.1 := by
  revert hx
  revert f
  simp only [monitorCols, List.forall_mem_cons, List.not_mem_nil, false_implies, implies_true, and_true]
  refine ⟨fun hx => ?_, fun hx => ?_, fun hx => ?_⟩
  · obtain ⟨qs, hqs⟩ := colField_listed (int := false) hx
    exact .inl ⟨_, false, qs, .time hpol, hqs⟩
  · obtain ⟨qs, hqs⟩ := colField_listed (int := true) hx
    exact .inl ⟨_, true, qs, .monitor hpol, hqs⟩
  · obtain ⟨qs, hqs⟩ := colField_listed (int := false) hx
    exact .inl ⟨_, false, qs, .mcu hpol, hqs⟩

theorem listed_mon (h : Made iso logs p) {L : List Str} {n : ℕ} {k : Str} (hk : Listed L n p.mon k) :
    Named logs p.md k := by
  obtain ⟨f, hf, rfl, x, b, hx, hs⟩ := listed_field h.hmon hk
  clear hk
  rw [monitorFields] at hf
  split at hf
  · rename_i hn
    have hpol : ¬ Polarised p.md := by unfold Polarised; rw [hn]; decide
    rw [monitorNormal, List.mem_append] at hf
    rcases hf with hf | hf
    · revert hx hs
      revert f
      simp only [List.forall_mem_cons, List.not_mem_nil, false_implies, implies_true, and_true]
      exact ⟨fun hx hs => (text_not_listed (Except.ok.inj hx) hs).elim, fun hx hs => (text_not_listed (Except.ok.inj hx) hs).elim,
        fun _ _ => .inr (by decide)⟩
    · exact listed_cols hpol hf hx
  · split at hf
    · rename_i hn hpol
      rw [monitorCountfile, List.mem_append] at hf
      rcases hf with hf | hf
      · revert hx hs
        revert f
        simp only [List.forall_mem_cons, List.not_mem_nil, false_implies, implies_true, and_true]
        exact ⟨fun hx hs => (text_not_listed (Except.ok.inj hx) hs).elim, fun _ _ => .inr (by decide)⟩
      · obtain ⟨i, hi, hf⟩ := List.mem_flatMap.1 hf
        rw [mem_oneTo] at hi
        revert hx hs
        clear hn
        revert f
        suffices hsuf : ∀ f ∈ channelFields logs p.md i, f.2 = .ok (some (nxDs x b)) → sizedArray L n f.1 (.leaf x) = true →
            Named logs p.md f.1 from fun f _ hf => hsuf f hf
        simp only [channelFields, List.forall_mem_cons, List.not_mem_nil, false_implies, implies_true, and_true]
        refine ⟨fun hx hs => ?_, fun hx hs => ?_, fun hx hs => ?_, fun hx hs => ?_, fun hx hs => ?_, fun hx hs => ?_⟩
        · obtain ⟨s, _, hx⟩ := map_eq_ok.1 hx
          exact (text_not_listed hx hs).elim
        · obtain ⟨s, _, hx⟩ := map_eq_ok.1 hx
          rw [← nxDs_inj (Option.some.inj hx)] at hs
          exact absurd hs (by simp [sizedArray])
        · obtain ⟨qs, hqs⟩ := colField_listed (int := false) hx
          refine .inl ⟨_, false, qs, ?_, hqs⟩
          rw [suffixed_eq]; exact .times hpol hi.1 hi.2
        · obtain ⟨qs, hqs⟩ := colField_listed (int := true) hx
          refine .inl ⟨_, true, qs, ?_, hqs⟩
          rw [suffixed_eq]; exact .monitors hpol hi.1 hi.2
        · obtain ⟨qs, hqs⟩ := colField_listed (int := false) hx
          refine .inl ⟨_, false, qs, ?_, hqs⟩
          rw [suffixed_eq]; exact .mcus hpol hi.1 hi.2
        · obtain ⟨s, _, hx⟩ := map_eq_ok.1 hx
          exact (text_not_listed hx hs).elim
    · rename_i hpol
      exact listed_cols hpol hf hx

end

end Tavi
