import Verif.Model.Tavi
import Verif.Lemmas.Dec
import Verif.Lemmas.Assoc
import Verif.Props.Store

/-!
# Loading, numbering, saving and grouping scans (C44–C47)
-/

namespace Tavi

open Spec

/-! ## C44: loading -/

/-- The experiment an entry belongs to. -/
def Spec.expOf (d : Dict) : Option Str :=
  match attrOf d "dataset_name".toList with
  | some (.str s) => some s
  | _ => none

/-- Where a scan is found in the session. -/
def Spec.filed (data : TaviData) (exp name : Str) : Option Dict := (lookupKey exp data).bind (lookupKey name)

theorem expId_ok {d : Dict} {e : Str} (h : Spec.expOf d = some e) : expId d = .ok e := by
  unfold Spec.expOf attrOf at h
  rw [expId]
  cases ha : d.get? "attrs".toList with
  | none => rw [ha] at h; simp at h
  | some v =>
    rw [ha] at h
    cases v with
    | leaf a => simp at h
    | dict m =>
      show (need (m.get? "dataset_name".toList) .keyError >>= _) = _
      dsimp only at h
      unfold attrIn at h
      cases hm : m.get? "dataset_name".toList with
      | none => rw [hm] at h; simp at h
      | some w =>
        rw [hm] at h
        cases w with
        | dict _ => simp at h
        | leaf l =>
          cases l with
          | str s => obtain rfl := Option.some.inj h; rfl
          | _ => simp at h

theorem filed_fileEntry (acc : TaviData) (e n : Str) (d : Dict) (e' n' : Str) :
    Spec.filed (fileEntry acc e n d) e' n' = if e' = e ∧ n' = n then some d else Spec.filed acc e' n' := by
  have one : Spec.filed (assocSet acc e [(n, d)]) e' n' =
      if e' = e then (if n' = n then some d else none) else Spec.filed acc e' n' := by
    rw [Spec.filed, lookupKey_assocSet]
    by_cases he : e' = e
    · rw [if_pos he, if_pos he]
      show (if n = n' then some d else none) = _
      simp only [eq_comm]
    · rw [if_neg he, if_neg he]; rfl
  unfold fileEntry
  split
  · rename_i x xs hx
    rw [Spec.filed, lookupKey_assocSet]
    by_cases he : e' = e
    · rw [if_pos he]
      show lookupKey n' (assocSet (x :: xs) n d) = _
      rw [lookupKey_assocSet]
      by_cases hn : n' = n
      · rw [if_pos hn, if_pos ⟨he, hn⟩]
      · rw [if_neg hn, if_neg (fun h => hn h.2), Spec.filed, he, hx]; rfl
    · rw [if_neg he, if_neg (fun h => he h.1)]; rfl
  · rename_i hx
    rw [one]
    by_cases he : e' = e
    · rw [if_pos he]
      by_cases hn : n' = n
      · rw [if_pos hn, if_pos ⟨he, hn⟩]
      · rw [if_neg hn, if_neg (fun h => hn h.2), Spec.filed, he]
        cases hl : lookupKey e acc with
        | none => rfl
        | some l =>
          cases l with
          | nil => rfl
          | cons x xs => exact absurd hl (hx x xs)
    · rw [if_neg he, if_neg (fun h => he h.1)]

theorem keys_fileEntry (acc : TaviData) (e n : Str) (d : Dict) :
    (fileEntry acc e n d).map Prod.fst = if e ∈ acc.map Prod.fst then acc.map Prod.fst else acc.map Prod.fst ++ [e] := by
  unfold fileEntry
  split <;> exact keys_assocSet _ _ _

theorem nodup_fileEntry {acc : TaviData} (h : (acc.map Prod.fst).Nodup) (e n : Str) (d : Dict) :
    ((fileEntry acc e n d).map Prod.fst).Nodup := by
  unfold fileEntry
  split <;> exact nodup_assocSet h _ _

/-- The last of the scans with the given name and experiment. -/
def Spec.latest : List (Str × Dict) → Str → Str → Option Dict
  | [], _, _ => none
  | (n, d) :: l, exp, name =>
    (Spec.latest l exp name).or (if n = name ∧ Spec.expOf d = some exp then some d else none)

theorem loadData_from (scans : List (Str × Dict)) (hexp : ∀ nd ∈ scans, ∃ e, Spec.expOf nd.2 = some e) (acc : TaviData)
    (hacc : (acc.map Prod.fst).Nodup) :
    ∃ new, scans.foldlM (fun acc nd => expId nd.2 >>= fun e => Except.ok (fileEntry acc e nd.1 nd.2)) acc = .ok new ∧
      (∀ e n, Spec.filed new e n = (Spec.latest scans e n).or (Spec.filed acc e n)) ∧
      (∀ e, e ∈ new.map Prod.fst ↔ e ∈ acc.map Prod.fst ∨ ∃ nd ∈ scans, Spec.expOf nd.2 = some e) ∧
      (new.map Prod.fst).Nodup := by
  induction scans generalizing acc with
  | nil => exact ⟨acc, rfl, fun e n => rfl, fun e => by simp, hacc⟩
  | cons nd l ih =>
    obtain ⟨n0, d0⟩ := nd
    obtain ⟨e0, he0⟩ := hexp (n0, d0) (by simp)
    obtain ⟨new, h1, h2, h3, h4⟩ := ih (fun nd h => hexp nd (by simp [h])) (fileEntry acc e0 n0 d0)
      (nodup_fileEntry hacc _ _ _)
    refine ⟨new, ?_, fun e n => ?_, fun e => ?_, h4⟩
    · rw [List.foldlM_cons, expId_ok he0]; exact h1
    · rw [h2, filed_fileEntry, Spec.latest, Option.or_assoc]
      congr 1
      dsimp only at he0
      rw [he0]
      by_cases h : e = e0 ∧ n = n0
      · rw [if_pos h, if_pos ⟨h.2.symm, by rw [h.1]⟩]; rfl
      · rw [if_neg h, if_neg (fun h' => h ⟨(Option.some.inj h'.2).symm, h'.1.symm⟩)]; rfl
    · rw [h3, keys_fileEntry]
      have : (e ∈ if e0 ∈ acc.map Prod.fst then acc.map Prod.fst else acc.map Prod.fst ++ [e0]) ↔
          e ∈ acc.map Prod.fst ∨ e = e0 := by
        split
        · constructor
          · exact Or.inl
          · rintro (h | rfl) <;> assumption
        · simp
      rw [this]
      simp only [List.mem_cons, exists_eq_or_imp]
      dsimp only at he0
      rw [he0, Option.some.injEq, or_assoc]
      constructor
      · rintro (h | h | h)
        · exact .inl h
        · exact .inr (.inl h.symm)
        · exact .inr (.inr h)
      · rintro (h | h | h)
        · exact .inl h
        · exact .inr (.inl h.symm)
        · exact .inr (.inr h)

/-- Loading scans files them under their experiment; experiments that occur are replaced as a whole. -/
theorem loadScans_filed (data : TaviData) (scans : List (Str × Dict))
    (hexp : ∀ nd ∈ scans, ∃ e, Spec.expOf nd.2 = some e) :
    ∃ data', loadScans data scans = .ok data' ∧
      ∀ e n, Spec.filed data' e n =
        if ∃ nd ∈ scans, Spec.expOf nd.2 = some e then Spec.latest scans e n else Spec.filed data e n := by
  obtain ⟨new, h1, h2, h3, h4⟩ := loadData_from scans hexp [] (by simp)
  refine ⟨assocUpdate data new, ?_, fun e n => ?_⟩
  · rw [loadScans, show loadData scans = .ok new from h1]; rfl
  · have h2' : Spec.filed new e n = Spec.latest scans e n := by
      rw [h2]
      show (Spec.latest scans e n).or none = _
      cases Spec.latest scans e n <;> rfl
    rw [Spec.filed, lookupKey_assocUpdate data h4]
    by_cases hx : ∃ nd ∈ scans, Spec.expOf nd.2 = some e
    · rw [if_pos hx, ← h2', Spec.filed]
      have : e ∈ new.map Prod.fst := (h3 e).2 (.inr hx)
      cases hl : lookupKey e new with
      | none => exact absurd this ((lookupKey_eq_none _ _).1 hl)
      | some l => rfl
    · rw [if_neg hx]
      have : lookupKey e new = none := by
        rw [lookupKey_eq_none, h3]
        rintro (h | h)
        · simp at h
        · exact hx h
      rw [this]; rfl

/-- A history of loads. -/
def loadAll (loads : List (List (Str × Dict))) : Py TaviData := loads.foldlM loadScans []

theorem latest_mem {scans : List (Str × Dict)} (hnd : (scans.map Prod.fst).Nodup) {e n : Str} {d : Dict} :
    Spec.latest scans e n = some d ↔ (n, d) ∈ scans ∧ Spec.expOf d = some e := by
  induction scans generalizing d with
  | nil => simp [Spec.latest]
  | cons nd l ih =>
    obtain ⟨n0, d0⟩ := nd
    rw [List.map_cons, List.nodup_cons] at hnd
    have ih := fun d' => ih (d := d') hnd.2
    rw [Spec.latest, List.mem_cons]
    by_cases hn : n0 = n
    · subst hn
      have hno : Spec.latest l e n0 = none := by
        cases h : Spec.latest l e n0 with
        | none => rfl
        | some d' => exact absurd (List.mem_map.2 ⟨_, ((ih d').1 h).1, rfl⟩) hnd.1
      rw [hno]
      show (if n0 = n0 ∧ Spec.expOf d0 = some e then some d0 else none) = some d ↔ _
      constructor
      · intro h
        split at h
        · rename_i h'
          obtain rfl := Option.some.inj h
          exact ⟨.inl rfl, h'.2⟩
        · simp at h
      · rintro ⟨h | h, he⟩
        · obtain rfl := (Prod.mk.inj h).2
          rw [if_pos ⟨rfl, he⟩]
        · exact absurd (List.mem_map.2 ⟨_, h, rfl⟩) hnd.1
    · rw [if_neg (fun h => hn h.1)]
      have : (Spec.latest l e n).or none = Spec.latest l e n := by cases Spec.latest l e n <;> rfl
      rw [this, ih]
      constructor
      · rintro ⟨h, he⟩; exact ⟨.inr h, he⟩
      · rintro ⟨h | h, he⟩
        · exact absurd (Prod.mk.inj h).1.symm hn
        · exact ⟨h, he⟩

/-- **C44** (partial): after any sequence of loads, the scans found under an experiment are exactly those of the last load
that contained this experiment. Missing: scans of earlier loads of the same experiment are lost, see `C44_lost`. -/
theorem C44_filed_partial (loads : List (List (Str × Dict)))
    (hexp : ∀ L ∈ loads, ∀ nd ∈ L, ∃ e, Spec.expOf nd.2 = some e) (hnd : ∀ L ∈ loads, (L.map Prod.fst).Nodup) :
    ∃ data, loadAll loads = .ok data ∧ ∀ e n d, Spec.filed data e n = some d ↔
      ∃ pre L post, loads = pre ++ L :: post ∧ (n, d) ∈ L ∧ Spec.expOf d = some e ∧
        ∀ L' ∈ post, ∀ nd ∈ L', Spec.expOf nd.2 ≠ some e := by
  induction loads using List.reverseRecOn with
  | nil => exact ⟨[], rfl, fun e n d => by simp [Spec.filed, lookupKey]⟩
  | append_singleton loads L ih =>
    obtain ⟨data, h1, h2⟩ := ih (fun L' h => hexp L' (by simp [h])) (fun L' h => hnd L' (by simp [h]))
    obtain ⟨data', h3, h4⟩ := loadScans_filed data L (hexp L (by simp))
    refine ⟨data', ?_, fun e n d => ?_⟩
    · rw [loadAll, List.foldlM_append, show loads.foldlM loadScans [] = .ok data from h1]
      show (loadScans data L >>= fun s => Except.ok s) = _
      rw [h3]; rfl
    · rw [h4]
      split
      · rename_i hx
        rw [latest_mem (hnd L (by simp))]
        constructor
        · rintro ⟨hm, he⟩
          exact ⟨loads, L, [], rfl, hm, he, by simp⟩
        · rintro ⟨pre, L0, post, heq, hm, he, hp⟩
          rcases List.eq_nil_or_concat post with rfl | ⟨post', L', rfl⟩
          · have := List.append_inj' heq rfl
            obtain rfl := (List.cons.inj this.2).1
            exact ⟨hm, he⟩
          · rw [List.concat_eq_append, ← List.cons_append, ← List.append_assoc] at heq
            have := List.append_inj' heq rfl
            obtain rfl := (List.cons.inj this.2).1
            obtain ⟨nd, hnd', hne⟩ := hx
            exact absurd hne (hp L (by simp) nd hnd')
      · rename_i hx
        rw [h2]
        constructor
        · rintro ⟨pre, L0, post, rfl, hm, he, hp⟩
          refine ⟨pre, L0, post ++ [L], by simp, hm, he, ?_⟩
          intro L' hL'
          rcases List.mem_append.1 hL' with h | h
          · exact hp L' h
          · obtain rfl := List.mem_singleton.1 h
            exact fun nd h h' => hx ⟨nd, h, h'⟩
        · rintro ⟨pre, L0, post, heq, hm, he, hp⟩
          rcases List.eq_nil_or_concat post with rfl | ⟨post', L', rfl⟩
          · have := List.append_inj' heq rfl
            obtain rfl := (List.cons.inj this.2).1
            exact absurd ⟨_, hm, he⟩ hx
          · rw [List.concat_eq_append, ← List.cons_append, ← List.append_assoc] at heq
            have := List.append_inj' heq rfl
            exact ⟨pre, L0, post', this.1, hm, he, fun L'' h => hp L'' (by simp [h])⟩

/-- **C44**: a filed scan is retrieved by its experiment and number, anything else raises `KeyError`. -/
theorem C44_get (data : TaviData) (e : Str) (n : ℕ) :
    getScan data (.tup e n) = match Spec.filed data e (scanName n) with
      | some d => .ok (scanName n, d)
      | none => .error .keyError := by
  rw [getScan, Spec.filed]
  cases lookupKey e data with
  | none => rfl
  | some scans =>
    show (need (lookupKey (scanName n) scans) .keyError >>= _) = match lookupKey (scanName n) scans with
      | some d => .ok (scanName n, d)
      | none => .error .keyError
    cases lookupKey (scanName n) scans <;> rfl

/-- **C44**: a bare scan number means the first experiment of the session. -/
theorem C44_get_num (e : Str) (scans : List (Str × Dict)) (data : TaviData) (n : ℕ) :
    getScan ((e, scans) :: data) (.num n) = getScan ((e, scans) :: data) (.tup e n) := by
  rw [getScan, getScan, lookupKey, if_pos rfl]; rfl

/-- **C44**, the code disagrees: loading further scans of an experiment loses all its scans loaded before that are not
loaded again. -/
theorem C44_lost (L1 L2 : List (Str × Dict)) (e : Str) (n : ℕ) (d : Dict)
    (hexp : ∀ L ∈ [L1, L2], ∀ nd ∈ L, ∃ e, Spec.expOf nd.2 = some e)
    (hnd : ∀ L ∈ [L1, L2], (L.map Prod.fst).Nodup)
    (h1 : (scanName n, d) ∈ L1) (hd : Spec.expOf d = some e)
    (h2 : ∃ nd ∈ L2, Spec.expOf nd.2 = some e) (hn : scanName n ∉ L2.map Prod.fst) :
    (∃ data, loadAll [L1] = .ok data ∧ getScan data (.tup e n) = .ok (scanName n, d)) ∧
    ∃ data, loadAll [L1, L2] = .ok data ∧ getScan data (.tup e n) = .error .keyError := by
  constructor
  · obtain ⟨data, g1, g2⟩ := C44_filed_partial [L1] (fun L h => hexp L (by simp at h; simp [h]))
      (fun L h => hnd L (by simp at h; simp [h]))
    refine ⟨data, g1, ?_⟩
    rw [C44_get, (g2 e (scanName n) d).2 ⟨[], L1, [], rfl, h1, hd, by simp⟩]
  · obtain ⟨data, g1, g2⟩ := C44_filed_partial [L1, L2] hexp hnd
    refine ⟨data, g1, ?_⟩
    have : Spec.filed data e (scanName n) = none := by
      cases hf : Spec.filed data e (scanName n) with
      | none => rfl
      | some d' =>
        exfalso
        obtain ⟨pre, L, post, heq, hm, he, hp⟩ := (g2 _ _ _).1 hf
        match pre, heq with
        | [], heq =>
          obtain ⟨rfl, rfl⟩ := List.cons.inj heq
          obtain ⟨nd, hnd', hne⟩ := h2
          exact hp L2 (by simp) nd hnd' hne
        | [_], heq =>
          obtain ⟨_, heq⟩ := List.cons.inj heq
          obtain ⟨rfl, _⟩ := List.cons.inj heq
          exact hn (List.mem_map.2 ⟨_, hm, rfl⟩)
        | _ :: _ :: pre, heq => simp at heq
    rw [C44_get, this]

/-- **C44**, the code disagrees: of two files of a folder holding a scan of the same name from different experiments, only
the second scan is loaded. -/
theorem C44_same_name_lost (name e1 e2 : Str) (d1 d2 : Dict) (h2 : Spec.expOf d2 = some e2)
    (hne : e1 ≠ e2) (data : TaviData) (hdata : Spec.filed data e1 name = none) :
    ∃ data', loadNexusFolder data [[(name, d1)], [(name, d2)]] = .ok data' ∧ Spec.filed data' e1 name = none := by
  have hf : ([[(name, d1)], [(name, d2)]] : List (List (Str × Dict))).foldl assocUpdate [] = [(name, d2)] := by
    show (if name = name then (name, d2) :: [] else _) = _
    rw [if_pos rfl]
  obtain ⟨data', g1, g2⟩ := loadScans_filed data [(name, d2)] (by
    intro nd h; obtain rfl := List.mem_singleton.1 h; exact ⟨e2, h2⟩)
  refine ⟨data', by rw [loadNexusFolder, hf]; exact g1, ?_⟩
  rw [g2, if_neg, hdata]
  rintro ⟨nd, h, h'⟩
  obtain rfl := List.mem_singleton.1 h
  rw [show Spec.expOf d2 = some e2 from h2] at h'
  exact hne (Option.some.inj h').symm

/-! ## C45: numbers and names -/

/-- **C45**: different numbers have different names. -/
theorem C45_injective (m n : ℕ) (h : scanName m = scanName n) : m = n := by
  have h' : pad4 m = pad4 n := List.append_cancel_left h
  rw [← (pad4_spec m).1, h', (pad4_spec n).1]

theorem append_lt_append_left_iff (s t u : Str) : s ++ t < s ++ u ↔ t < u := by
  induction s with
  | nil => rfl
  | cons c s ih =>
    rw [List.cons_append, List.cons_append, List.cons_lt_cons_iff, ih]
    simp

/-- **C45**: names are sorted like numbers up to 9999. -/
theorem C45_order (m n : ℕ) (hm : m ≤ 9999) (hn : n ≤ 9999) : scanName m < scanName n ↔ m < n := by
  rw [scanName, scanName, append_lt_append_left_iff,
    (digits_order (pad4_spec m).2.1 (pad4_spec n).2.1 ((pad4_length hm).trans (pad4_length hn).symm)).1,
    (pad4_spec m).1, (pad4_spec n).1]

theorem last4_scanName (n : ℕ) : last4 (scanName n) = last4 (pad4 n) := by
  have h := (pad4_spec n).2.2
  rw [last4, last4, scanName, List.length_append,
    show "scan".toList.length + (pad4 n).length - 4 = "scan".toList.length + ((pad4 n).length - 4) by omega,
    List.drop_append]
  rw [List.drop_eq_nil_of_le (by omega)]
  simp

/-- The number a scan reports is its number modulo 10000. -/
theorem reported_mod (n : ℕ) : reportedNumber (scanName n) = .ok ((n % 10000 : ℕ) : ℤ) := by
  obtain ⟨h1, h2, h3⟩ := pad4_spec n
  have hsplit : pad4 n = (pad4 n).take ((pad4 n).length - 4) ++ last4 (pad4 n) := (List.take_append_drop _ _).symm
  have hlen : (last4 (pad4 n)).length = 4 := by rw [last4, List.length_drop]; omega
  have hdig : (last4 (pad4 n)).all isDigit = true := by
    rw [List.all_eq_true] at h2 ⊢
    exact fun c hc => h2 c (List.mem_of_mem_drop hc)
  have hlt := digitsVal_lt hdig
  rw [hlen] at hlt
  have hval : n = digitsVal ((pad4 n).take ((pad4 n).length - 4)) * 10 ^ 4 + digitsVal (last4 (pad4 n)) := by
    conv_lhs => rw [← h1, hsplit, digitsVal_append, hlen]
  rw [reportedNumber, last4_scanName, pyInt_digits (by intro h; rw [h] at hlen; simp at hlen) hdig]
  congr 2
  omega

/-- **C45** (partial): a scan reports the number it was requested by, up to 9999. Missing: larger numbers, see
`C45_reported_wrong`. -/
theorem C45_reported_partial (data : TaviData) (e : Str) (n : ℕ) (hn : n ≤ 9999) (name : Str) (d : Dict)
    (h : getScan data (.tup e n) = .ok (name, d)) : reportedNumber name = .ok (n : ℤ) := by
  rw [C44_get] at h
  split at h
  · obtain ⟨rfl, _⟩ := Prod.mk.inj (Except.ok.inj h)
    rw [reported_mod, Nat.mod_eq_of_lt (by omega)]
  · exact absurd h (by simp)

/-- **C45**, the code disagrees: a scan with a number of five or more digits reports another number. -/
theorem C45_reported_wrong (n : ℕ) (hn : 10000 ≤ n) :
    ∃ m : ℤ, reportedNumber (scanName n) = .ok m ∧ m ≠ n := by
  refine ⟨_, reported_mod n, ?_⟩
  have := Nat.mod_lt n (show 0 < 10000 by norm_num)
  omega

example : scanName 34 = "scan0034".toList := by decide +kernel

/-! ## C46: saving -/

/-- A session with well-formed content: every experiment and every scan once, entries well-formed. -/
def Spec.GoodData (data : TaviData) : Prop :=
  (data.map Prod.fst).Nodup ∧ ∀ es ∈ data, (es.2.map Prod.fst).Nodup ∧ ∀ nd ∈ es.2, Entry nd.2

theorem saveScans_ok (scans : List (Str × Dict)) (hnd : (scans.map Prod.fst).Nodup) (hd : ∀ nd ∈ scans, Entry nd.2)
    (a : List (Str × Leaf)) (ch : H5s) (hnew : ∀ n ∈ scans.map Prod.fst, ch.get? n = none) :
    ∃ ch', saveScans scans (.node none a ch) = .ok (.node none a ch') ∧
      (∀ n, n ∉ scans.map Prod.fst → ch'.get? n = ch.get? n) ∧
      ∀ n d, (n, d) ∈ scans → ∃ g, ch'.get? n = some g ∧ ∀ p, g.view p = view d p := by
  induction scans generalizing ch with
  | nil => exact ⟨ch, rfl, fun n _ => rfl, by simp⟩
  | cons nd l ih =>
    obtain ⟨n0, d0⟩ := nd
    rw [List.map_cons, List.nodup_cons] at hnd
    have hd0 : Entry d0 := hd (n0, d0) (by simp)
    obtain ⟨a', c', h1, h2⟩ := writeDict_overlay hd0 [] .nil (by
      intro p f _ v g hv
      cases p with
      | nil => rw [H5.view] at hv; simp at hv
      | cons k p => rw [H5.view] at hv; split at hv <;> simp_all [H5s.get?])
    have hw : toNexus d0 n0 (.node none a ch) = .ok (.node none a (ch.set n0 (.node none a' c'))) := by
      have : (H5.node none a ch).require n0 = .ok H5.empty := by rw [H5.require, hnew n0 (by simp)]
      rw [toNexus, this]
      show (writeDict d0 (.node none [] .nil) >>= fun g' => H5.put _ n0 g') = _
      rw [h1]; rfl
    obtain ⟨ch', g1, g2, g3⟩ := ih hnd.2 (fun nd h => hd nd (by simp [h])) (ch.set n0 (.node none a' c')) (by
      intro n hn
      rw [H5s.get?_set, if_neg (by rintro rfl; exact hnd.1 hn)]
      exact hnew n (by simp [List.mem_map] at hn ⊢; exact .inr hn))
    refine ⟨ch', ?_, fun n hn => ?_, fun n d hm => ?_⟩
    · rw [saveScans, hw]; exact g1
    · rw [List.map_cons, List.mem_cons, not_or] at hn
      rw [g2 n hn.2, H5s.get?_set, if_neg hn.1]
    · rcases List.mem_cons.1 hm with h | h
      · obtain ⟨rfl, rfl⟩ := Prod.mk.inj h
        refine ⟨.node none a' c', by rw [g2 n hnd.1, H5s.get?_set, if_pos rfl], fun p => ?_⟩
        rw [h2]
        refine overlay_empty hd0 _ (fun x => rfl) (fun k p hk => ?_) p
        rw [H5.view_child hk]; rfl
      · exact g3 n d h

theorem saveExps_ok (data : TaviData) (hd : Spec.GoodData data) (a : List (Str × Leaf)) (ch : H5s)
    (hnew : ∀ n ∈ data.map Prod.fst, ch.get? n = none) :
    ∃ ch', saveExps data (.node none a ch) = .ok (.node none a ch') ∧
      (∀ e, e ∉ data.map Prod.fst → ch'.get? e = ch.get? e) ∧
      ∀ e scans, (e, scans) ∈ data → ∃ ce, ch'.get? e = some (.node none [] ce) ∧
        (∀ n, n ∉ scans.map Prod.fst → ce.get? n = none) ∧
        ∀ n d, (n, d) ∈ scans → ∃ g, ce.get? n = some g ∧ ∀ p, g.view p = view d p := by
  induction data generalizing ch with
  | nil => exact ⟨ch, rfl, fun n _ => rfl, by simp⟩
  | cons es l ih =>
    obtain ⟨e0, scans0⟩ := es
    have hnd := hd.1
    rw [List.map_cons, List.nodup_cons] at hnd
    obtain ⟨hs1, hs2⟩ := hd.2 (e0, scans0) (by simp)
    obtain ⟨ce, h1, h2, h3⟩ := saveScans_ok scans0 hs1 hs2 [] .nil (fun n _ => rfl)
    have hg : (H5.node none a ch).newGroup e0 (.node none [] ce) = .ok (.node none a (ch.set e0 (.node none [] ce))) := by
      rw [H5.newGroup, if_neg]
      · rfl
      · rw [show (H5.node none a ch).children.get? e0 = none from hnew e0 (by simp)]; simp
    obtain ⟨ch', g1, g2, g3⟩ := ih ⟨hnd.2, fun es h => hd.2 es (by simp [h])⟩ (ch.set e0 (.node none [] ce)) (by
      intro n hn
      rw [H5s.get?_set, if_neg (by rintro rfl; exact hnd.1 hn)]
      exact hnew n (by simp [List.mem_map] at hn ⊢; exact .inr hn))
    refine ⟨ch', ?_, fun e he => ?_, fun e scans hm => ?_⟩
    · rw [saveExps, show saveScans scans0 H5.empty = .ok (.node none [] ce) from h1]
      show (H5.newGroup _ _ _ >>= _) = _
      rw [hg]; exact g1
    · rw [List.map_cons, List.mem_cons, not_or] at he
      rw [g2 e he.2, H5s.get?_set, if_neg he.1]
    · rcases List.mem_cons.1 hm with h | h
      · obtain ⟨rfl, rfl⟩ := Prod.mk.inj h
        exact ⟨ce, by rw [g2 e hnd.1, H5s.get?_set, if_pos rfl], fun n hn => by rw [h2 n hn]; rfl, h3⟩
      · exact g3 e scans h

theorem lookupKey_readEntries (ch : H5s) (n : Str) : lookupKey n (readEntries ch) = (ch.get? n).map readNode := by
  induction ch using H5s.rec (motive_1 := fun _ => True) with
  | node => trivial
  | nil => rfl
  | cons k' n' rest _ ih =>
    rw [readEntries, lookupKey, H5s.get?]
    by_cases h : k' = n
    · rw [if_pos h, if_pos h]; rfl
    · rw [if_neg h, if_neg h, ih]

theorem lookupKey_readExps (ch : H5s) (e : Str) :
    lookupKey e (readExps ch) = (ch.get? e).map fun g => readEntries g.children := by
  induction ch using H5s.rec (motive_1 := fun _ => True) with
  | node => trivial
  | nil => rfl
  | cons k' n' rest _ ih =>
    rw [readExps, lookupKey, H5s.get?]
    by_cases h : k' = e
    · rw [if_pos h, if_pos h]; rfl
    · rw [if_neg h, if_neg h, ih]

/-- **C46** (partial): saving under a file name writes every scan with all its content and nothing else: opening the file
gives the same scans, with the same groups, datasets and attributes at every path. Missing: saving without a name
(`C46_unnamed_fails`) and the logs of entries that were looked at (`C46_logs_lost`). -/
theorem C46_saved_partial (data : TaviData) (hd : Spec.GoodData data) (path : Str) :
    ∃ root data', save (some path) data = .ok root ∧ openFile root = .ok data' ∧
      ∀ e n, (Spec.filed data' e n).map view = (Spec.filed data e n).map view := by
  obtain ⟨ch', h1, h2, h3⟩ := saveExps_ok data hd [] .nil (fun n _ => rfl)
  refine ⟨.node none [] (.cons "data".toList (.node none [] ch') (.cons "processed_data".toList H5.empty
    (.cons "fits".toList H5.empty (.cons "plots".toList H5.empty .nil)))), readExps ch', ?_, ?_, fun e n => ?_⟩
  · rw [save, if_neg (by simp), show saveExps data H5.empty = .ok (.node none [] ch') from h1]; rfl
  · rw [openFile, H5.children, H5s.get?, if_pos rfl]; rfl
  · rw [Spec.filed, Spec.filed, lookupKey_readExps]
    cases hl : lookupKey e data with
    | none =>
      rw [h2 e ((lookupKey_eq_none _ _).1 hl)]; rfl
    | some scans =>
      have hm := (lookupKey_mem hd.1).1 hl
      obtain ⟨ce, g1, g2, g3⟩ := h3 e scans hm
      rw [g1]
      show Option.map view (lookupKey n (readEntries ce)) = Option.map view (lookupKey n scans)
      rw [lookupKey_readEntries]
      cases hn : lookupKey n scans with
      | none => rw [g2 n ((lookupKey_eq_none _ _).1 hn)]; rfl
      | some d =>
        obtain ⟨g, k1, k2⟩ := g3 n d ((lookupKey_mem (hd.2 _ hm).1).1 hn)
        rw [k1]
        show some (view (readNode g)) = some (view d)
        congr 1
        funext p
        rw [view_readNode, k2]

/-- **C46**, the code disagrees: saving without a file name fails whenever there is anything to save. -/
theorem C46_unnamed_fails (data : TaviData) (e : Str) (scans : List (Str × Dict)) (h : (e, scans) ∈ data)
    (hs : scans ≠ []) : save none data = .error .typeError := by
  rw [save, if_pos ⟨rfl, _, h, hs⟩]

theorem entry_erase {d : Dict} (hd : Entry d) (q : Str) : Entry (d.erase q) := by
  induction hd with
  | nil => exact .nil
  | attrs ha hr _ ih =>
    rw [Dict.erase]
    split
    · exact ih
    · exact .attrs ha (by rw [get?_erase, hr]; split <;> rfl) ih
  | data hk he hr _ ih =>
    rw [Dict.erase]
    split
    · exact ih
    · exact .data hk he (by rw [get?_erase, hr]; split <;> rfl) ih
  | group hk he hr _ _ ih =>
    rw [Dict.erase]
    split
    · exact ih
    · exact .group hk he (by rw [get?_erase, hr]; split <;> rfl) ih

theorem entry_afterReads {d : Dict} (hd : Entry d) (qs : List (Str × Bool)) : Entry (afterReads d qs) := by
  cases qs with
  | nil => exact hd
  | cons q qs => rw [afterReads_cons, ← dropLogs_eq]; exact entry_erase (entry_erase hd _) _

/-- **C46** (partial): looking at entries before saving does not affect anything outside their logs. -/
theorem C46_after_reads_partial (data : TaviData) (hd : Spec.GoodData data) (path e n : Str) (d : Dict)
    (qs : List (Str × Bool))
    (hf : Spec.filed data e n = some (afterReads d qs)) :
    ∃ root data' d', save (some path) data = .ok root ∧ openFile root = .ok data' ∧ Spec.filed data' e n = some d' ∧
      ∀ k p, k ≠ "SPICElogs".toList → k ≠ "DASlogs".toList → view d' (k :: p) = view d (k :: p) := by
  obtain ⟨root, data', h1, h2, h3⟩ := C46_saved_partial data hd path
  have := h3 e n
  rw [hf] at this
  cases hd' : Spec.filed data' e n with
  | none => rw [hd'] at this; simp at this
  | some d' =>
    rw [hd'] at this
    have hv : view d' = view (afterReads d qs) := Option.some.inj this
    refine ⟨root, data', d', h1, h2, hd', fun k p hk1 hk2 => ?_⟩
    rw [hv, view, view, C42_kept_partial d qs k ⟨hk1, hk2⟩]

/-- **C46**, the code disagrees: the logs of an entry that was looked at are not saved. -/
theorem C46_logs_lost (data : TaviData) (hd : Spec.GoodData data) (path e n : Str) (d : Dict)
    (q : Str × Bool) (qs : List (Str × Bool)) (hf : Spec.filed data e n = some (afterReads d (q :: qs))) :
    ∃ root data' d', save (some path) data = .ok root ∧ openFile root = .ok data' ∧ Spec.filed data' e n = some d' ∧
      view d' ["SPICElogs".toList] = none ∧ view d' ["DASlogs".toList] = none := by
  obtain ⟨root, data', h1, h2, h3⟩ := C46_saved_partial data hd path
  have := h3 e n
  rw [hf] at this
  cases hd' : Spec.filed data' e n with
  | none => rw [hd'] at this; simp at this
  | some d' =>
    rw [hd'] at this
    have hv : view d' = view (afterReads d (q :: qs)) := Option.some.inj this
    obtain ⟨k1, k2, _, _⟩ := C42_logs_lost d q qs []
    refine ⟨root, data', d', h1, h2, hd', ?_, ?_⟩
    · rw [hv, view, k1]; split <;> rfl
    · rw [hv, view, k2]; split <;> rfl

/-! ## C47: names of groups -/

theorem groupNames_get (c : ℕ) (names : List Str) (i : ℕ) (h : names[i]? = some []) :
    (groupNames c names)[i]? = some ("CombinedScans".toList ++ decStr (c + i)) := by
  induction names generalizing c i with
  | nil => simp at h
  | cons m l ih =>
    cases i with
    | zero =>
      obtain rfl : m = [] := by simpa using h
      rfl
    | succ i =>
      have := ih (c + 1) i (by simpa using h)
      rw [groupNames, List.getElem?_cons_succ, show (groupName c m).2 = c + 1 from rfl, this]
      congr 3
      omega

/-- **C47**: groups created without a name have pairwise different names, whatever groups are created in between. -/
theorem C47_distinct (c : ℕ) (names : List Str) (i j : ℕ) (hij : i ≠ j) (hi : names[i]? = some [])
    (hj : names[j]? = some []) : (groupNames c names)[i]? ≠ (groupNames c names)[j]? := by
  rw [groupNames_get c names i hi, groupNames_get c names j hj]
  intro h
  have := decStr_injective (List.append_cancel_left (Option.some.inj h))
  omega

/-- **C47**: a name that is given is used. -/
theorem C47_given (c : ℕ) (names : List Str) (i : ℕ) (m : Str) (hm : m ≠ []) (hi : names[i]? = some m) :
    (groupNames c names)[i]? = some m := by
  induction names generalizing c i with
  | nil => simp at hi
  | cons m' l ih =>
    cases i with
    | zero =>
      obtain rfl : m' = m := by simpa using hi
      rw [groupNames, List.getElem?_cons_zero, groupName, if_neg hm]
    | succ i => rw [groupNames, List.getElem?_cons_succ]; exact ih _ i (by simpa using hi)

/-! ## Concrete cases -/

namespace Demo

theorem saved_exp : Spec.expOf saved = some "IPTS1_CG4C_exp0424".toList := rfl

/-- Two loads of the same experiment: the first scan is lost. -/
example : ∃ data, loadAll [[(scanName 34, saved)], [(scanName 35, saved)]] = .ok data ∧
    getScan data (.tup "IPTS1_CG4C_exp0424".toList 34) = .error .keyError :=
  (C44_lost _ _ _ _ saved
    (by
      intro L hL nd hnd
      simp only [List.mem_cons, List.not_mem_nil, or_false] at hL
      rcases hL with rfl | rfl <;> (obtain rfl := List.mem_singleton.1 hnd; exact ⟨_, saved_exp⟩))
    (by
      intro L hL
      simp only [List.mem_cons, List.not_mem_nil, or_false] at hL
      rcases hL with rfl | rfl <;> simp)
    (List.mem_singleton.2 rfl) saved_exp ⟨_, List.mem_singleton.2 rfl, saved_exp⟩
    (by
      simp only [List.map_cons, List.map_nil, List.mem_singleton]
      intro h
      exact absurd (C45_injective _ _ h) (by norm_num))).2

/-- A session that can be saved. -/
theorem good : Spec.GoodData [("IPTS1_CG4C_exp0424".toList, [(scanName 34, saved), (scanName 35, saved)])] := by
  refine ⟨by simp, fun es hes => ?_⟩
  obtain rfl := List.mem_singleton.1 hes
  refine ⟨?_, fun nd hnd => ?_⟩
  · simp only [List.map_cons, List.map_nil, List.nodup_cons, List.mem_singleton, List.not_mem_nil, not_false_eq_true,
      List.nodup_nil, and_true]
    intro h
    exact absurd (C45_injective _ _ h) (by norm_num)
  · simp only [List.mem_cons, List.not_mem_nil, or_false] at hnd
    rcases hnd with rfl | rfl <;> exact saved_entry

end Demo

end Tavi
