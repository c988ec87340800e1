import Verif.Props.NamesBack
import Verif.Props.Measurement

/-!
# A scan that was written to a NeXus file and read back (C82)
-/

namespace Tavi

open Spec

/-! ## The logs of a file -/

section
variable {xml : List Str → Option Str} {fs : FS} {dir : List Str} {file : Str} {f : SpiceFile} {logs : List (Str × LogVal)}

theorem nodup_addUb {path temp : List Str} {l out : List (Str × LogVal)} (hl : (l.map Prod.fst).Nodup)
    (h : addUb xml fs path temp l = .ok out) : (out.map Prod.fst).Nodup := by
  rw [addUb] at h
  split at h
  · obtain ⟨c, _, rfl⟩ := map_eq_ok.1 h
    exact nodup_assocSet hl _ _
  · split at h
    · obtain ⟨c, _, rfl⟩ := map_eq_ok.1 h
      exact nodup_assocSet hl _ _
    · obtain rfl := Except.ok.inj h; exact hl

theorem nodup_logs (h : createSpicelogs xml fs dir file = .ok logs) : (logs.map Prod.fst).Nodup := by
  obtain ⟨f, _, _, _, h'⟩ := createSpicelogs_inv h
  refine nodup_addUb ?_ h'
  rw [logBase_eq]
  exact nodup_assocUpdate _ (by simp)

theorem plain_logs (hf : readSpiceDatafile fs (dir ++ [file]) = .ok f) (h : createSpicelogs xml fs dir file = .ok logs)
    (hp : ∀ c ∈ (columns f).map Prod.fst, Plain c) : PlainLogs logs := by
  intro k c hm
  have hl := (lookupKey_mem (nodup_logs h)).2 hm
  by_cases hu : k = "ub_conf".toList
  · rw [hu]; decide
  by_cases hk : k = "metadata".toList
  · rw [hk]; decide
  rw [logs_lookup hf h hu, if_neg hk, Option.or_none] at hl
  obtain ⟨l, hl', _⟩ := Option.map_eq_some_iff.1 hl
  exact hp k (List.mem_map_of_mem (f := Prod.fst) (lookupKey_some_mem hl'))

end

/-! ## An entry that was read -/

/-- The entry `e` was read, and is `d` apart from the links in the group `data` and the logs. -/
structure ReadAs (d e : Dict) : Prop where
  node : ∃ a ch, e = readNode (.node none a ch) ∧ ch.Clean
  same : ∀ G, Plain G → G ∉ [kData, kSpice, kDas] → (norm e).get? G = (norm d).get? G
  views : ∀ q, (∀ k ∈ [kData, kSpice, kDas], q.head? ≠ some k) ∨ q = [kData] → SameBut (view e q) (shown (view d q))
  look : ∀ key, (∀ q ∈ path key false, Plain q) → (path key false).head? ≠ some kData →
    (nxGet e key false).1 = (nxGet d key false).1.map (Option.map readVal)

theorem flat_attr {g : Dict} {K : List Str} (hf : Flat g K) (ht : Tidy g) (x : Str) : NoArray (attrOf g x) := by
  unfold attrOf
  cases hg : g.get? "attrs".toList with
  | none => exact .inl rfl
  | some v =>
    rcases hf.sub _ _ (mem_items_of_get? hg) with ⟨_, a, rfl⟩ | ⟨_, y, a, rfl⟩
    · dsimp only
      rw [attrIn]
      rcases strDict_get a x with h | ⟨s, h⟩
      · rw [h]; exact .inl rfl
      · rw [h]; exact .inr ⟨s, rfl⟩
    · exfalso
      rcases items_tidy ht (mem_items_of_get? hg) with ⟨_, d, e, hd⟩ | ⟨hp, _⟩
      · obtain rfl : nxDs y a = d := by injection e
        exact attrDict_flat hd (show (nxDs y a).get? kAttrs = some (.dict (strDict a)) from rfl)
      · exact hp.1 rfl

theorem nxDs_attr (y : Leaf) (a : List (Str × Str)) (x : Str) : NoArray (attrOf (nxDs y a) x) := by
  show NoArray (attrIn (strDict a) x)
  rw [attrIn]
  rcases strDict_get a x with h | ⟨s, h⟩
  · rw [h]; exact .inl rfl
  · rw [h]; exact .inr ⟨s, rfl⟩

theorem ReadAs.attr {d e : Dict} (h : ReadAs d e) {q : List Str} (hq : ∀ k ∈ [kData, kSpice, kDas], q.head? ≠ some k) {x : Str} (hx : x ≠ "target".toList)
    {w v : Option Leaf} {A B : Str → Option Leaf} (h1 : view e q = some (w, A)) (h2 : view d q = some (v, B)) :
    A x = B x := by
  have := (h.views q (.inl hq)).2 (w, A) (v.map readLeaf, B) h1 (by rw [h2]; rfl) x hx
  exact this

/-- A group of the entry. -/
theorem ReadAs.group {d e : Dict} (h : ReadAs d e) {G : Str} {g : Dict} (hG : d.get? G = some (.dict g)) (hp : Plain G)
    (hd : G ∉ [kData, kSpice, kDas]) (ht : Tidy g) : ∃ a ch, e.get? G = some (.dict (readNode (.node none a ch))) ∧ ch.Clean ∧
      norm (readNode (.node none a ch)) = norm g ∧ ∀ x, x ≠ "target".toList → lookupKey x a = attrOf g x := by
  obtain ⟨a0, ch0, rfl, hc⟩ := h.node
  have hn : (norm (readNode (.node none a0 ch0))).get? G = some (.dict (norm g)) := by
    rw [h.same G hp hd, get?_norm _ hp.1, hG]; rfl
  rw [get?_norm _ hp.1] at hn
  obtain ⟨v, hv, e⟩ := Option.map_eq_some_iff.1 hn
  have hm := mem_items_of_get? hv
  rw [readNode, items, List.mem_cons] at hm
  rcases hm with hm | hm
  · exact absurd (Prod.mk.inj hm).1 hp.1
  obtain ⟨_, m, hmc, rfl⟩ := mem_readMembers hm hc
  rw [normV] at e
  injection e with e
  obtain ⟨a, ch, rfl⟩ := group_read ht e
  refine ⟨a, ch, hv, clean_node.1 hmc, e, fun x hx => ?_⟩
  have h1 : view (readNode (.node none a0 ch0)) [G] = some (dataOf (readNode (.node none a ch)), attrOf (readNode (.node none a ch))) := by
    rw [view, if_neg (not_or.2 hp), hv]; rfl
  have h2 : view d [G] = some (dataOf g, attrOf g) := by rw [view, if_neg (not_or.2 hp), hG]; rfl
  have := h.attr (q := [G]) (fun k hk e => hd (by rw [Option.some.inj e]; exact hk)) hx h1 h2
  rw [← this, (attrOf_read none a ch x).resolve_right (by simp)]

section
variable {iso : Str → Py Str} {logs : List (Str × LogVal)} {p : Pieces}

/-- What the list shows after writing and reading. -/
def KeptSomewhere (p : Pieces) (n : ℕ) (k : Str) : Prop :=
  (∃ C g, (C, g) ∈ p.comps ∧ KeptComp n C g k) ∨ Kept n p.mon k ∨ Kept n p.samp k

theorem named_get (p : Pieces) (ds : Str) {k : Str} (hk : k ≠ kAttrs) (h1 : k ≠ kSpice) (h2 : k ≠ kDas) :
    (setDatasetName p.entry ds).get? k = (dropLogs p.entry).get? k := by
  rw [get?_setDatasetName _ _ hk, entry_get _ h1 h2]

theorem drop_get (d : Dict) {k : Str} (h1 : k ≠ kSpice) (h2 : k ≠ kDas) : (dropLogs d).get? k = d.get? k := by
  rw [dropLogs, get?_erase, if_neg h2, get?_erase, if_neg h1]

theorem path_eq (key : Str) : splitChar '/' (specialKey key false) = path key false := split_special key false

/-- The names of an entry that was read. -/
theorem Fine.names_back (h : Fine p) (hfine : NameFine p.md) {qs : List (Option ℚ)}
    (hp0 : (nxGet p.entry "Pt.".toList false).1 = .ok (some (.leaf (.arr (Spec.shown true qs)))))
    (hno : p.mon.get? "data".toList = none) {ds : Str} {e : Dict} (hr : ReadAs (setDatasetName p.entry ds) e) :
    ∃ l, datasetNames [] e = .ok (l, dropLogs e) ∧ ∀ k, k ∈ l ↔ KeptSomewhere p qs.length k := by
  have hp : (nxGet e "Pt.".toList false).1 = .ok (some (.leaf (.arr (Spec.shown true qs)))) := by
    rw [hr.look _ (by decide) (by decide), nxGet_setDatasetName _ _ _ _ (by decide), hp0]; rfl
  have hmd0 : (nxGet p.entry "monitor/data".toList false).1 = .ok none := by
    rw [nxGet]
    show getItem (dropLogs p.entry) (splitChar '/' (specialKey "monitor/data".toList false)) false = _
    rw [show splitChar '/' (specialKey "monitor/data".toList false) = ["monitor".toList, "data".toList] by decide]
    exact getItem_miss (entry_mon p) hno
  have hmd : (nxGet (dropLogs e) "monitor/data".toList false).1 = .ok none := by
    rw [nxGet_drop, hr.look _ (by decide) (by decide), nxGet_setDatasetName _ _ _ _ (by decide), hmd0]; rfl
  obtain ⟨K2, flat_mon⟩ := h.flat_mon
  obtain ⟨K3, flat_samp⟩ := h.flat_samp
  obtain ⟨a1, c1, g1, k1, n1, t1⟩ := hr.group (G := "instrument".toList)
    ((named_get p ds (by decide) (by decide) (by decide)).trans (entry_inst p)) (by decide) (by decide) h.tidy_inst
  obtain ⟨a2, c2, g2, k2, n2, t2⟩ := hr.group (G := "monitor".toList)
    ((named_get p ds (by decide) (by decide) (by decide)).trans (entry_mon p)) (by decide) (by decide) h.neat_mon.1
  obtain ⟨a3, c3, g3, k3, n3, t3⟩ := hr.group (G := "sample".toList)
    ((named_get p ds (by decide) (by decide) (by decide)).trans (entry_samp p)) (by decide) (by decide) h.neat_samp.1
  obtain ⟨la, ha, hma⟩ := inst_back h hfine k1 n1 (fun C f hf hC => by
    have hdi : (setDatasetName p.entry ds).get? "instrument".toList = some (.dict p.inst) :=
      (named_get p ds (by decide) (by decide) (by decide)).trans (entry_inst p)
    have hn : (norm p.inst).get? C = some (.dict (norm f)) := by rw [← n1, get?_norm _ hC, hf]; rfl
    rw [get?_norm _ hC] at hn
    obtain ⟨w, hw, he⟩ := Option.map_eq_some_iff.1 hn
    have hCd : C ≠ kDataset := by
      rintro rfl
      rw [h.tidy_inst.not_has] at hw; exact absurd hw (by simp)
    cases w with
    | leaf v => rw [normV] at he; cases he
    | dict g =>
      have v1 : view e ["instrument".toList, C] = some (dataOf f, attrOf f) := by
        rw [view, if_neg (by decide), g1]
        show view _ [C] = _
        rw [view, if_neg (not_or.2 ⟨hC, hCd⟩), hf]; rfl
      have v2 : view (setDatasetName p.entry ds) ["instrument".toList, C] = some (dataOf g, attrOf g) := by
        rw [view, if_neg (by decide), hdi]
        show view _ [C] = _
        rw [view, if_neg (not_or.2 ⟨hC, hCd⟩), hw]; rfl
      have hat : ∀ x, x ≠ "target".toList → attrOf f x = attrOf g x := fun x hx =>
        hr.attr (q := ["instrument".toList, C]) (show ∀ k ∈ [kData, kSpice, kDas], some "instrument".toList ≠ some k by decide) hx v1 v2
      rw [hat _ (by decide)]
      rcases inst_items' p (mem_items_of_get? hw) with hk | ⟨g', e', hg'⟩ | ⟨rfl, ds', e', hds⟩
      · exact absurd hk hC
      · obtain rfl : g = g' := by injection e'
        obtain ⟨K, hK⟩ := h.flat_comp hg'
        exact flat_attr hK (h.neat_comp hg').1 _
      · obtain rfl : g = ds' := by injection e'
        cases hs : textOf p.md "instrument".toList with
        | none => rw [hs] at hds; exact absurd hds (by simp [dsText])
        | some s =>
          rw [hs] at hds
          cases s with
          | nil => exact absurd hds (by simp [dsText])
          | cons c s =>
            obtain rfl := Option.some.inj hds
            exact nxDs_attr _ _ _) qs.length
  obtain ⟨lb, hb, hmb⟩ := flat_back flat_mon h.neat_mon.1 k2 n2 (by
    rw [t2 _ (by decide)]; exact flat_attr flat_mon h.neat_mon.1 _) qs.length
  obtain ⟨lc, hc, hmc⟩ := flat_back flat_samp h.neat_samp.1 k3 n3 (by
    rw [t3 _ (by decide)]; exact flat_attr flat_samp h.neat_samp.1 _) qs.length
  refine ⟨la ++ lb ++ lc, ?_, fun k => ?_⟩
  · rw [datasetNames, hp, py_bind_ok, lenOf, py_bind_ok]
    rw [show (Spec.shown true qs).length = qs.length from List.length_map _]
    rw [groupOf, drop_get _ (by decide) (by decide), g1, need_some, py_bind_ok]
    show (namesInstrument [] qs.length _ >>= _) = _
    rw [ha, py_bind_ok, groupOf, drop_get _ (by decide) (by decide), g2, need_some, py_bind_ok]
    show (dropMonitorData (dropLogs e) _ >>= _) = _
    rw [dropMonitorData, hmd, py_bind_ok, if_neg (by simp), py_bind_ok]
    show (namesIn [] qs.length _ >>= _) = _
    rw [hb, py_bind_ok, groupOf, drop_get _ (by decide) (by decide), g3, need_some, py_bind_ok]
    show (namesIn [] qs.length _ >>= _) = _
    rw [hc]; rfl
  · rw [List.mem_append, List.mem_append, hma, hmb, hmc, or_assoc]; rfl

theorem Made.names_back (h : Made iso logs p) (hfine : NameFine p.md) {qs : List (Option ℚ)}
    (hpt : colOf logs "Pt.".toList = some qs) {ds : Str} {e : Dict} (hr : ReadAs (setDatasetName p.entry ds) e) :
    ∃ l, datasetNames [] e = .ok (l, dropLogs e) ∧ ∀ k, k ∈ l ↔ KeptSomewhere p qs.length k :=
  h.fine.names_back hfine ((h.column (c := "Pt.".toList) (n := "Pt.".toList) .point []).2 qs hpt) (mon_no_data h) hr

/-! ## Names before and after -/

theorem member_plain {g : Dict} (ht : Tidy g) {k : Str} {x : Leaf} {a : List (Str × Str)}
    (hm : (k, Val.dict (nxDs x a)) ∈ items g) : Plain k := by
  rcases items_tidy ht hm with ⟨_, d, e, hd⟩ | ⟨hp, _⟩
  · obtain rfl : nxDs x a = d := by injection e
    exact (attrDict_flat hd (show (nxDs x a).get? kAttrs = some (.dict (strDict a)) from rfl)).elim
  · exact hp

theorem kept_listed {n : ℕ} {g : Dict} {k : Str} (h : Kept n g k) : Listed [] n g k := by
  obtain ⟨x, a, hm, hs⟩ := h
  refine ⟨x, a, hm, ?_⟩
  cases x with
  | strs l => exact absurd hs (by simp [readLeaf, sizedArray])
  | _ => exact hs

theorem kept_iff {n : ℕ} {g : Dict} (hg : Neat g) {L : List Str} {k : Str} (hk : k ∉ listNames) (hL : k ∉ L) :
    Kept n g k ↔ Listed L n g k := by
  have hs : ∀ x, sizedArray [] n k (.leaf x) = sizedArray L n k (.leaf x) := by
    intro x
    cases x <;> simp [sizedArray, hL]
  constructor
  · intro h
    obtain ⟨x, a, hm, hx⟩ := kept_listed h
    exact ⟨x, a, hm, by rw [← hs]; exact hx⟩
  · rintro ⟨x, a, hm, hx⟩
    refine ⟨x, a, hm, ?_⟩
    rw [← hs] at hx
    cases x with
    | strs l => exact absurd (hg.2 k _ l hm (member_plain hg.1 hm) rfl) hk
    | _ => exact hx

theorem Fine.kept_iff (h : Fine p) {n : ℕ} {L : List Str} {k : Str} (hk : k ∉ listNames) (hL : k ∉ L) :
    KeptSomewhere p n k ↔ Somewhere p L n k := by
  unfold KeptSomewhere Somewhere KeptComp
  rw [Tavi.kept_iff h.neat_mon hk hL, Tavi.kept_iff h.neat_samp hk hL]
  refine or_congr_left (exists_congr fun C => exists_congr fun g => and_congr_right fun hC => ?_)
  rw [Tavi.kept_iff (h.neat_comp hC) hk hL]

theorem Made.kept_named (h : Made iso logs p) {n : ℕ} {k : Str} (hk : KeptSomewhere p n k) : Named logs p.md k := by
  refine h.named (L := []) (n := n) ?_
  rcases hk with ⟨C, g, hC, hk⟩ | hk | hk
  · refine .inl ⟨C, g, hC, ?_⟩
    unfold KeptComp at hk
    split
    · rename_i hc; rwa [if_pos hc] at hk
    · rename_i hc; rw [if_neg hc] at hk; exact kept_listed hk
  · exact .inr (.inl (kept_listed hk))
  · exact .inr (.inr (kept_listed hk))

/-- Where a listed name leads. -/
theorem named_path {md : List (Str × MetaVal)} {k : Str} (hk : Named logs md k) :
    (∀ q ∈ path k false, Plain q) ∧ (path k false).head? ≠ some kData ∧
      (k ≠ "countfile".toList → (path k false).getLast? ∉ listNames.map some) ∧ k ≠ "name".toList := by
  have hnum : ∀ (q : Str) (_ : q ∈ numNames) (i : ℕ), (∀ r ∈ path (withNumber q i) false, Plain r) ∧
      (path (withNumber q i) false).head? ≠ some kData ∧
      (withNumber q i ≠ "countfile".toList → (path (withNumber q i) false).getLast? ∉ listNames.map some) ∧
      withNumber q i ≠ "name".toList := by
    intro q hq i
    rw [← suffixed_eq]
    have hne : ∀ s ∈ ["detector".toList, "monitor".toList, "sample".toList, "data".toList, "name".toList, "countfile".toList],
        suffixed q i ≠ s := by
      intro s hs e
      exact ((show ∀ s ∈ ["detector".toList, "monitor".toList, "sample".toList, "data".toList, "name".toList,
        "countfile".toList], NotNumbered s by decide) s hs).ne hq i e.symm
    have hsl : '/' ∉ suffixed q i := by
      rw [suffixed, List.mem_append, List.mem_append]
      have hs : ∀ q ∈ numNames, '/' ∉ q := by decide
      rintro ((h | h) | h)
      · exact hs q hq h
      · exact absurd h (by decide)
      · obtain ⟨_, h2, _⟩ := decStr_spec i
        exact absurd (List.all_eq_true.1 h2 _ h) (by decide)
    have hpath : path (suffixed q i) false = [suffixed q i] := by
      rw [← path_eq, specialKey, if_neg (by simp), if_neg (hne _ (by decide)), if_neg (hne _ (by decide)),
        if_neg (hne _ (by decide)), splitChar_plain hsl]
    rw [hpath]
    refine ⟨fun r hr => by rw [List.mem_singleton.1 hr]; exact numbered_plain hq i,
      fun e => hne _ (by decide) (Option.some.inj e), fun _ hm => ?_, hne _ (by decide)⟩
    simp only [listNames, List.map_cons, List.map_nil, List.getLast?_singleton, List.mem_cons, Option.some.injEq,
      List.not_mem_nil, or_false] at hm
    rcases hm with hm | hm
    · exact hne _ (by decide) hm
    · exact hne _ (by decide) hm
  rcases hk with ⟨c, int, qs, hc, _⟩ | hk
  · cases hc with
    | same hc => exact (show ∀ k ∈ Spec.sameName, (∀ q ∈ path k false, Plain q) ∧ (path k false).head? ≠ some kData ∧
        (k ≠ "countfile".toList → (path k false).getLast? ∉ listNames.map some) ∧ k ≠ "name".toList by decide +kernel) _ hc
    | renamed hc => exact (show ∀ z ∈ Spec.renamed, (∀ q ∈ path z.2 false, Plain q) ∧ (path z.2 false).head? ≠ some kData ∧
        (z.2 ≠ "countfile".toList → (path z.2 false).getLast? ∉ listNames.map some) ∧ z.2 ≠ "name".toList by decide +kernel) _ hc
    | detector => decide
    | point => decide
    | time _ => decide
    | mcu _ => decide
    | monitor _ => decide
    | detectors _ _ => exact hnum _ (by decide) _
    | times _ _ _ => exact hnum _ (by decide) _
    | mcus _ _ _ => exact hnum _ (by decide) _
    | monitors _ _ _ => exact hnum _ (by decide) _
  · exact (show ∀ k ∈ Spec.headerVectors, (∀ q ∈ path k false, Plain q) ∧ (path k false).head? ≠ some kData ∧
        (k ≠ "countfile".toList → (path k false).getLast? ∉ listNames.map some) ∧ k ≠ "name".toList by decide +kernel) _ hk

theorem path_ne_nil (key : Str) : path key false ≠ [] := by
  rw [← path_eq]; exact splitChar_ne_nil _ _

/-- A value looked up in the entry is not changed by reading, unless it is a list of texts. -/
theorem Fine.value_back (h : Fine p) {ds key : Str} (hp : ∀ q ∈ path key false, Plain q)
    (hl : (path key false).getLast? ∉ listNames.map some) {o : Option Val}
    (ho : (nxGet (setDatasetName p.entry ds) key false).1 = .ok o) : o.map readVal = o := by
  cases hk : path key false with
  | nil => exact absurd hk (path_ne_nil key)
  | cons k ks =>
    rw [hk] at hp hl
    rw [nxGet_setDatasetName _ _ _ _ (by rw [path_eq, hk]; exact fun e => (hp k (by simp)).1 (Option.some.inj e)), nxGet,
      path_eq, hk] at ho
    cases o with
    | none => rfl
    | some v =>
      cases v with
      | dict d => rfl
      | leaf v =>
        cases v with
        | strs l =>
          have := h.list_at hp ho
          exact absurd (List.mem_map_of_mem (f := some) this) (by rw [← List.getLast?_eq_getLast_of_ne_nil]; exact hl)
        | _ => rfl

/-- A lookup in the entry that was read. -/
theorem Fine.look_back (h : Fine p) {ds : Str} {e : Dict} (hr : ReadAs (setDatasetName p.entry ds) e) {key : Str}
    (hp : ∀ q ∈ path key false, Plain q) (hk : (path key false).head? ≠ some kData)
    (hl : (path key false).getLast? ∉ listNames.map some) :
    (nxGet e key false).1 = (nxGet (setDatasetName p.entry ds) key false).1 := by
  rw [hr.look key hp hk]
  cases ho : (nxGet (setDatasetName p.entry ds) key false).1 with
  | error err => rfl
  | ok o =>
    show Except.ok (o.map readVal) = _
    rw [h.value_back hp hl ho]

/-- A scan of the entry that was read. -/
theorem Made.scan_back (h : Made iso logs p) {ds sn : Str} {e : Dict} (hr : ReadAs (setDatasetName p.entry ds) e) {s : ScanObj}
    (hs : newScan ["divergence_x".toList] sn p.entry = .ok s) :
    ∃ s', newScan [] sn e = .ok s' ∧ s'.name = sn ∧ s'.entry = dropLogs e ∧
      (∀ k, k ≠ "divergence_x".toList → k ≠ "countfile".toList → lookupKey k s'.data = lookupKey k s.data) ∧
      ∃ qs : List (Option ℚ), colOf logs "Pt.".toList = some qs ∧ ∀ k,
        (KeptSomewhere p qs.length k → ∃ v, (nxGet e k false).1 = .ok v ∧ lookupKey k s'.data = some v) ∧
        (¬ KeptSomewhere p qs.length k → lookupKey k s'.data = none) := by
  obtain ⟨qs, hpt, _, _, hdat⟩ := h.scan hs
  obtain ⟨l, hl, hmem⟩ := h.names_back (h.fine_of_ok hs) hpt hr
  have hne : ∀ {k : Str}, (path k false).head? ≠ some kAttrs → (nxGet (setDatasetName p.entry ds) k false).1 = (nxGet p.entry k false).1 :=
    fun hk => by rw [nxGet_setDatasetName _ _ _ _ (by rw [path_eq]; exact hk)]
  have hat : ∀ {k : Str}, Named logs p.md k → (path k false).head? ≠ some kAttrs := by
    intro k hk e
    obtain ⟨h1, _⟩ := named_path hk
    cases hc : path k false with
    | nil => exact path_ne_nil k hc
    | cons j js =>
      rw [hc] at h1 e
      exact (h1 j (by simp)).1 (Option.some.inj e)
  obtain ⟨data, hd⟩ := columnsLoop_ok (d := dropLogs e) (names := l) (acc := []) fun k hk => by
    have hn := h.kept_named ((hmem k).1 hk)
    obtain ⟨v, hv⟩ := h.named_ok hn
    obtain ⟨h1, h2, _⟩ := named_path hn
    exact ⟨v.map readVal, by rw [nxGet_drop, hr.look k h1 h2, hne (hat hn), hv]; rfl⟩
  refine ⟨⟨sn, dropLogs (dropLogs e), data⟩, by rw [newScan, hl, py_bind_ok, hd]; rfl, rfl, ?_, fun k h1 h2 => ?_,
    qs, hpt, fun k => ⟨fun hk => ?_, fun hk => (columnsLoop_inv hd k).2 fun hm => hk ((hmem k).1 hm)⟩⟩
  · show dropLogs (dropLogs e) = dropLogs e
    simp only [dropLogs_eq, nexusPart_nexusPart]
  · have hc := columnsLoop_inv hd k
    obtain ⟨g1, g2⟩ := hdat k
    have hname : k = "name".toList → ¬ Named logs p.md k := fun e hn => (named_path hn).2.2.2 e
    have hiff : KeptSomewhere p qs.length k ↔ Somewhere p ["divergence_x".toList] qs.length k := by
      by_cases hk : k = "name".toList
      · exact ⟨fun hh => absurd (h.kept_named hh) (hname hk), fun hh => absurd (h.named hh) (hname hk)⟩
      · exact h.fine.kept_iff (by simp only [listNames, List.mem_cons, List.not_mem_nil, or_false, not_or]; exact ⟨hk, h2⟩)
          (by simp only [List.mem_cons, List.not_mem_nil, or_false]; exact h1)
    by_cases hk : k ∈ l
    · have hks := (hmem k).1 hk
      have hn := h.kept_named hks
      obtain ⟨v, hv, hlk⟩ := hc.1 hk
      obtain ⟨w, hw, hlw⟩ := g1 (hiff.1 hks)
      rw [hlk, hlw]
      obtain ⟨n1, n2, n3, _⟩ := named_path hn
      rw [nxGet_drop, h.fine.look_back hr n1 n2 (n3 h2), hne (hat hn), hw] at hv
      rw [Except.ok.inj hv]
    · rw [g2 fun hh => hk ((hmem k).2 (hiff.2 hh)), hc.2 hk]
      rfl
  · obtain ⟨v, hv, hlk⟩ := (columnsLoop_inv hd k).1 ((hmem k).2 hk)
    rw [nxGet_drop] at hv
    exact ⟨v, hv, hlk⟩

theorem kept_flat {n : ℕ} {g : Dict} {K : List Str} (hf : Flat g K) {k : Str} (hk : Kept n g k) (hne : k ≠ kAttrs) : k ∈ K := by
  obtain ⟨x, a, hm, _⟩ := hk
  rcases hf.sub _ _ hm with ⟨h, _⟩ | ⟨h, _⟩
  · exact absurd h hne
  · exact h

theorem kept_field {fs : List Field} {a : List (Str × Str)} {g : Dict} (hg : addMembers fs (nxEntry a) = .ok g)
    {n : ℕ} {k : Str} (hk : Kept n g k) : ∃ f ∈ fs, f.1 = k ∧ ∃ x b, f.2 = .ok (some (nxDs x b)) ∧
      sizedArray [] n k (.leaf (readLeaf x)) = true := by
  obtain ⟨x, b, hm, hx⟩ := hk
  rcases addMembers_items hg _ _ hm with h | ⟨ds, hds, hmem⟩
  · simp only [nxEntry, items, List.mem_singleton, Prod.mk.injEq, Val.dict.injEq] at h
    exact absurd h.2.symm (strDict_ne_nxDs _ _ _)
  · obtain rfl : nxDs x b = ds := by simpa using hds
    exact ⟨_, hmem, rfl, x, b, rfl, hx⟩

/-- The list of the count file is not listed after writing and reading. -/
theorem Made.no_countfile (h : Made iso logs p) (n : ℕ) : ¬ KeptSomewhere p n "countfile".toList := by
  have hnum : ∀ q ∈ numNames, ∀ i, suffixed q i ≠ "countfile".toList := fun q hq i e =>
    (show NotNumbered "countfile".toList by decide).ne hq i e.symm
  rintro (⟨C, g, hC, hk⟩ | hk | hk)
  · unfold KeptComp at hk
    split at hk
    · exact absurd hk (by decide)
    simp only [Pieces.comps, List.mem_cons, Prod.mk.injEq, List.not_mem_nil, or_false] at hC
    rcases hC with ⟨_, rfl⟩ | ⟨_, rfl⟩ | ⟨_, rfl⟩ | ⟨_, rfl⟩ | ⟨_, rfl⟩ | ⟨_, rfl⟩ | ⟨_, rfl⟩ | ⟨_, rfl⟩
    · exact absurd (kept_flat h.flat_src hk (by decide)) (by decide)
    · exact absurd (kept_flat h.flat_mono hk (by decide)) (by decide)
    · exact absurd (kept_flat h.flat_coll hk (by decide)) (by decide)
    · exact absurd (kept_flat h.flat_ana hk (by decide)) (by decide)
    · have := kept_flat h.flat_det hk (by decide)
      rw [detK, List.mem_cons] at this
      rcases this with e | e
      · exact absurd e (by decide)
      · obtain ⟨i, _, e⟩ := List.mem_map.1 e
        exact hnum _ (by decide) i e
    · exact absurd (kept_flat h.flat_slits hk (by decide)) (by decide)
    · exact absurd (kept_flat h.flat_flip hk (by decide)) (by decide)
    · exact absurd (kept_flat h.flat_goni hk (by decide)) (by decide)
  · obtain ⟨f, hf, hfk, x, b, hx, hs⟩ := kept_field h.hmon hk
    unfold monitorFields at hf
    split at hf
    · have : f.1 ∈ (monitorNormal logs p.md).map Prod.fst := List.mem_map_of_mem hf
      rw [hfk] at this
      exact absurd this (by simp only [monitorNormal, List.map_cons, List.map_nil, List.map_append, monitorCols]; decide)
    · split at hf
      · rw [monitorCountfile, List.mem_append] at hf
        rcases hf with hf | hf
        · simp only [List.mem_cons, List.not_mem_nil, or_false] at hf
          rcases hf with rfl | rfl
          · exact absurd hfk (by decide)
          · obtain ⟨cf, _, e⟩ := map_eq_ok.1 hx
            have e := congrArg (fun d => Dict.get? d kDataset) (Option.some.inj e)
            obtain rfl : Leaf.strs (splitChar ',' cf) = x := by
              injection (show some (Val.leaf (Leaf.strs (splitChar ',' cf))) = some (Val.leaf x) from e) with e
              injection e
            exact absurd hs (by simp [readLeaf, sizedArray])
        · obtain ⟨i, _, hf⟩ := List.mem_flatMap.1 hf
          have : f.1 ∈ (channelFields logs p.md i).map Prod.fst := List.mem_map_of_mem hf
          rw [hfk, show (channelFields logs p.md i).map Prod.fst = chanK i from rfl] at this
          simp only [chanK, List.mem_cons, List.not_mem_nil, or_false] at this
          rcases this with e | e | e | e | e | e <;> exact hnum _ (by decide) i e.symm
      · have : f.1 ∈ (monitorCols logs).map Prod.fst := List.mem_map_of_mem hf
        rw [hfk] at this
        exact absurd this (by simp only [monitorCols, List.map_cons, List.map_nil]; decide)
  · exact absurd (kept_flat h.flat_samp hk (by decide)) (by decide)

/-- The collimation counts as a column if it has as many numbers as the scan has points. -/
theorem Made.keeps_collimation (h : Made iso logs p) {o : Option Val}
    (ho : (nxGet p.entry "divergence_x".toList false).1 = .ok o) :
    ∃ l : List ℚ, o = some (.leaf (reals l)) ∧ KeptSomewhere p l.length "divergence_x".toList := by
  have hc := h.hcoll
  rw [buildColl] at hc
  obtain ⟨t', ht', hc⟩ := py_bind_eq_ok.1 hc
  obtain ⟨l, hl, hc⟩ := py_bind_eq_ok.1 hc
  have h1 := h.collimation (textOf_metaText ht') hl
  rw [nxGet, show splitChar '/' (specialKey "divergence_x".toList false) = ["divergence_x".toList] by decide, h1] at ho
  refine ⟨l, (Except.ok.inj ho).symm, .inl ⟨"collimator".toList, p.coll, by simp [Pieces.comps], ?_⟩⟩
  unfold KeptComp
  rw [if_neg fun e => absurd e.1 (by decide)]
  obtain ⟨o', ho', hg⟩ := member_get (k := "divergence_x".toList) hc (by show collK.Nodup; decide) (by decide)
    (List.mem_cons_of_mem _ List.mem_cons_self)
  obtain rfl := Except.ok.inj ho'
  exact ⟨_, _, mem_items_of_get? hg, by simp [reals, readLeaf, sizedArray]⟩

/-- Writing an entry into a file and reading the file. -/
theorem readAs_in (pre : Str) {d : Dict} (ht : Tidy d) {name : Str} (hn : name ≠ kAttrs) {f : NxFile} {a : List (Str × Leaf)} {ch : H5s}
    (hf : f.tree = .node none a ch) (hnew : ch.get? name = none) (hl : ∀ l ∈ f.links, l.entry ≠ name) (hc : f.Clean) {x y : Str}
    {ox oy : Option (List Str)} {A : Str → Option Leaf} (hdata : view d ["data".toList] = some (none, A))
    (hy : A "signal".toList = some (.str y)) (hx : A "axes".toList = some (.str x)) (hxy : x ≠ y)
    (hax : AxisOf d x ox) (hay : AxisOf d y oy) (hxp : x ≠ kAttrs) (hyp : y ≠ kAttrs)
    (hempty : ∀ k, view d ["data".toList, k] = none)
    (hone : ∀ k p v B key, (k = x ∧ ox = some p) ∨ (k = y ∧ oy = some p) → view d p = some (some v, B) →
      path key false = [k] → (nxGet d key false).1 = .ok (some (.leaf v))) :
    ∃ f' e, toNexusIn pre d name f = .ok f' ∧ NewEntry name f f' ∧ f'.Clean ∧
      (readMembers f'.resolved.children).get? name = some (.dict e) ∧
      (ch = .nil → readMembers f'.resolved.children = .cons name (.dict e) .nil) ∧ ReadAs d e := by
  obtain ⟨f', r, t, M, h1, h0, h2, h3, h4, h5, h6, h7, h8, h9, h10, h11⟩ :=
    written_in pre ht hf hnew hl hdata hy hx hxy hax hay hxp hyp hempty
  have hcf := clean_in ht hn hf hnew hl hc h1
  obtain rfl : readMembers f'.resolved.children = r := Except.ok.inj h2
  refine ⟨f', readNode t, h1, h0, hcf, h3, h4, ?_, fun G hG hd => ?_, ?_, ?_⟩
  · have hc := clean_resolved hcf
    have hm := mem_items_of_get? h3
    obtain ⟨_, m, hmc, e⟩ := mem_readMembers hm (clean_children hc)
    injection e with e
    cases t with
    | node v a ch =>
      cases v with
      | some v => exact absurd h5 (by simp [H5.isDataset])
      | none =>
        cases m with
        | node v' a' ch' =>
          cases v' with
          | none => exact ⟨a', ch', e, clean_node.1 hmc⟩
          | some v' =>
            exfalso
            have h12 : (norm (readNode (.node none a ch))).get? kDataset = none := by
              rw [h7, get?_set, if_neg (by decide), get?_norm _ (by decide), ht.not_has]; rfl
            rw [e, get?_norm _ (by decide)] at h12
            cases a' with
            | nil => exact absurd h12 (by simp [readNode, Dict.get?])
            | cons z a' => exact absurd h12 (by rw [readNode, Dict.get?, if_neg (by decide), Dict.get?, if_pos rfl]; simp; simp)
  · rw [h7, get?_set, if_neg (fun e => hd (by rw [← e]; simp))]
  · intro q hq
    have hno : ∀ z, ¬ ["data".toList, z] <+: q := by
      intro z hz
      obtain ⟨r, rfl⟩ := hz
      rcases hq with hq | hq
      · exact hq kData (by simp) rfl
      · exact absurd (congrArg List.length hq) (by simp)
    exact h6 q (fun _ => hno x) fun _ => hno y
  · intro key hp hk
    cases hkey : path key false with
    | nil => exact absurd hkey (path_ne_nil key)
    | cons k ks =>
      rw [hkey] at hp hk
      refine look_written ht h7 h8 h9 hkey hp (fun h => hk (by rw [h]; rfl)) ?_
      rintro rfl v hv
      have hko : k = x ∨ k = y := by
        by_contra hcon
        rw [not_or] at hcon
        rw [h10 k hcon.1 hcon.2] at hv
        exact absurd hv (by simp)
      rcases hko with rfl | rfl
      · obtain ⟨g1, g2⟩ := h11 k ox (.inl ⟨rfl, rfl⟩)
        cases ho : ox with
        | none => rw [g1 ho] at hv; exact absurd hv (by simp)
        | some p =>
          obtain ⟨v', B, hv', hM'⟩ := g2 p ho
          refine ⟨v', hone k p v' B key (.inl ⟨rfl, ho⟩) hv' hkey, ?_⟩
          rw [hM'] at hv
          simpa [bareDs] using hv
      · obtain ⟨g1, g2⟩ := h11 k oy (.inr ⟨rfl, rfl⟩)
        cases ho : oy with
        | none => rw [g1 ho] at hv; exact absurd hv (by simp)
        | some p =>
          obtain ⟨v', B, hv', hM'⟩ := g2 p ho
          refine ⟨v', hone k p v' B key (.inr ⟨rfl, ho⟩) hv' hkey, ?_⟩
          rw [hM'] at hv
          simpa [bareDs] using hv

/-- Writing an entry to a new file and reading the file. -/
theorem readAs_new {d : Dict} (ht : Tidy d) {name : Str} (hn : name ≠ kAttrs) {x y : Str}
    {ox oy : Option (List Str)} {A : Str → Option Leaf} (hdata : view d ["data".toList] = some (none, A))
    (hy : A "signal".toList = some (.str y)) (hx : A "axes".toList = some (.str x)) (hxy : x ≠ y)
    (hax : AxisOf d x ox) (hay : AxisOf d y oy) (hxp : x ≠ kAttrs) (hyp : y ≠ kAttrs)
    (hempty : ∀ k, view d ["data".toList, k] = none)
    (hone : ∀ k p v B key, (k = x ∧ ox = some p) ∨ (k = y ∧ oy = some p) → view d p = some (some v, B) →
      path key false = [k] → (nxGet d key false).1 = .ok (some (.leaf v))) :
    ∃ f' e, toNexusFile d name .new = .ok f' ∧ fromNexusFile f' none = .ok (.cons name (.dict e) .nil) ∧ ReadAs d e := by
  obtain ⟨f', e, h1, _, _, _, h4, h5⟩ := readAs_in [] ht hn (f := .new) (ch := .nil) rfl rfl (by simp [NxFile.new])
    ⟨clean_node.2 trivial, by simp [NxFile.new]⟩ hdata hy hx hxy hax hay hxp hyp hempty hone
  exact ⟨f', e, h1, by rw [← h4 rfl]; rfl, h5⟩

end

end Tavi
