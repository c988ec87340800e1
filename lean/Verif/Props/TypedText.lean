import Verif.Props.OtherEntries
import Verif.Props.Numbers
import Verif.Props.SampleScan

/-! # C43: text that an entry declares to be numbers is stored as the numbers it stands for; C85: mosaics a scan reports -/

namespace Tavi

open Spec

/-- An entry with one dataset of a declared type. -/
def typedEntry (k ty : Str) (v : Leaf) : Dict :=
  .cons k (.dict (.cons "dataset".toList (.leaf v) (.cons "attrs".toList (.dict (.cons "type".toList (.leaf (.str ty)) .nil)) .nil))) .nil

theorem typed_written {k ty : Str} {v w : Leaf} (hk : Plain k) {name : Str} (hn : Plain name) (h : formatAs (some (.leaf (.str ty))) v = .ok w) :
    ∃ root, toNexus (typedEntry k ty v) name H5.empty = .ok root ∧
      ∃ r, fromNexus root none = .ok r ∧ (view r [name, k]).map Prod.fst = some (some (readLeaf w)) := by
  have hf : formatDataset (.cons "dataset".toList (.leaf v) (.cons "attrs".toList (.dict (.cons "type".toList (.leaf (.str ty)) .nil)) .nil)) = .ok w := h
  have hw : writeDict (typedEntry k ty v) H5.empty = .ok (.node none [] (.cons k (.node (some w) [("type".toList, .str ty)] .nil) .nil)) := by
    rw [typedEntry, writeDict, writeItem, if_neg hk.1, if_pos (show Dict.has _ _ = true from rfl), hf]
    rfl
  refine ⟨.node none [] (.cons name (.node none [] (.cons k (.node (some w) [("type".toList, .str ty)] .nil) .nil)) .nil), ?_, _, rfl, ?_⟩
  · rw [toNexus]
    show (writeDict _ H5.empty >>= fun g' => H5.put _ name g') = _
    rw [hw]; rfl
  · show (view (readMembers _) [name, k]).map Prod.fst = _
    rw [view_child hn (by rw [get?_readMembers]; show Option.map _ (H5s.get? (.cons name _ _) name) = _; rw [H5s.get?, if_pos rfl]; rfl),
      view_readNode, H5.view_child hk, H5s.get?, if_pos rfl]
    rfl

theorem typed_refused {k ty : Str} {v : Leaf} {x : PyErr} (hk : Plain k) (name : Str) (h : formatAs (some (.leaf (.str ty))) v = .error x) :
    toNexus (typedEntry k ty v) name H5.empty = .error x := by
  have hf : formatDataset (.cons "dataset".toList (.leaf v) (.cons "attrs".toList (.dict (.cons "type".toList (.leaf (.str ty)) .nil)) .nil)) = .error x := h
  rw [toNexus]
  show (writeDict _ H5.empty >>= fun g' => H5.put _ name g') = _
  rw [typedEntry, writeDict, writeItem, if_neg hk.1, if_pos (show Dict.has _ _ = true from rfl), hf]
  rfl

/-- **C43** Texts declared `NX_FLOAT` are stored, and read back, as the numbers they stand for, one by one and in their order. -/
theorem C43_numerals {k : Str} (hk : Plain k) {name : Str} (hn : Plain name) {l : List Str} {ns : List Numeral}
    (hv : List.Forall₂ (fun s n => n.Valid ∧ Trim s n.text) l ns) :
    ∃ root, toNexus (typedEntry k "NX_FLOAT".toList (.strs l)) name H5.empty = .ok root ∧
      ∃ r, fromNexus root none = .ok r ∧
        (view r [name, k]).map Prod.fst = some (some (.fin (ns.map fun n => ((n.value : ℚ) : ℝ)))) := by
  refine typed_written hk hn (w := .fin (ns.map fun n => ((n.value : ℚ) : ℝ))) ?_
  have h : l.mapM pyFloat = .ok (ns.map Numeral.value) := by
    clear hn hk
    induction hv with
    | nil => rfl
    | cons h _ ih =>
      rw [List.mapM_cons, pyFloat_ok h.1 h.2, py_bind_ok, ih]
      rfl
  rw [formatAs, if_neg (by decide), if_pos rfl]
  rw [asFloat, h]
  show Except.ok _ = _
  simp only [List.map_map]
  rfl

/-- **C43** Texts declared `NX_INT` are stored as the whole numbers they stand for, in their order. -/
theorem C43_whole_numbers {k : Str} (hk : Plain k) {name : Str} (hn : Plain name) (ns : List (Option Bool × Str))
    (hv : ∀ n ∈ ns, n.2.all isDigit = true ∧ n.2 ≠ []) :
    ∃ root, toNexus (typedEntry k "NX_INT".toList (.strs (ns.map fun n => signText n.1 ++ n.2))) name H5.empty = .ok root ∧
      ∃ r, fromNexus root none = .ok r ∧
        (view r [name, k]).map Prod.fst = some (some (.fin (ns.map fun n => ((signFactor n.1 * decVal n.2 : ℤ) : ℝ)))) := by
  refine typed_written hk hn (w := .fin (ns.map fun n => ((signFactor n.1 * decVal n.2 : ℤ) : ℝ))) ?_
  have h : (ns.map fun n => signText n.1 ++ n.2).mapM pyInt = .ok (ns.map fun n => signFactor n.1 * decVal n.2) := by
    clear hn hk
    induction ns with
    | nil => rfl
    | cons n ns ih =>
      obtain ⟨h1, h2⟩ := hv n (by simp)
      rw [List.map_cons, List.mapM_cons, pyInt_signed n.1 h1 h2, py_bind_ok, ih fun m hm => hv m (by simp [hm])]
      rfl
  rw [formatAs, if_neg (by decide), if_neg (by decide), if_pos rfl]
  rw [asInt, h]
  show Except.ok _ = _
  simp only [List.map_map]
  rfl

/-- **C43** A list with a text that is no number, declared `NX_FLOAT`, is refused (`ValueError`). -/
theorem C43_not_numbers {k : Str} (hk : Plain k) (name : Str) (l : List Str) {s : Str} (hs : s ∈ l) (hno : ∀ q, pyFloat s ≠ .ok q) :
    toNexus (typedEntry k "NX_FLOAT".toList (.strs l)) name H5.empty = .error .valueError := by
  refine typed_refused hk name ?_
  have herr : ∀ t x, pyFloat t = .error x → x = .valueError := by
    intro t x hx
    have nd : ∀ {o : Option ℚ}, need o PyErr.valueError = .error x → x = .valueError := by
      intro o h
      cases o with
      | none => exact (Except.error.inj h).symm
      | some y => cases h
    unfold pyFloat at hx
    split at hx <;> exact nd hx
  have h : l.mapM pyFloat = .error .valueError := by
    induction l with
    | nil => cases hs
    | cons t l ih =>
      rw [List.mapM_cons]
      cases ht : pyFloat t with
      | error x => rw [herr t x ht]; rfl
      | ok q =>
        have hs' : s ∈ l := by
          rcases List.mem_cons.1 hs with rfl | h
          · exact absurd ht (hno q)
          · exact h
        rw [py_bind_ok, ih hs']
        rfl
  rw [formatAs, if_neg (by decide), if_pos rfl]
  rw [asFloat, h]
  rfl

/-- **C85** The sample of a scan has no mosaic exactly if the scan reports none; a number that is reported is its mosaic. -/
theorem C85_mosaic {i : SampleUBInfo} {s : SampleRec} (h : sampleFromInfo i = .ok s) :
    (s.mosaicH = .null ↔ i.mosaicH = none) ∧ (s.mosaicV = .null ↔ i.mosaicV = none) ∧
    (∀ x, i.mosaicH = some (.leaf (.num x)) → s.mosaicH = .num x) ∧ (∀ x, i.mosaicV = some (.leaf (.num x)) → s.mosaicV = .num x) := by
  unfold sampleFromInfo at h
  obtain ⟨L, _, h⟩ := py_bind_eq_ok.1 h
  obtain ⟨s0, _, h⟩ := py_bind_eq_ok.1 h
  obtain ⟨n, _, h⟩ := py_bind_eq_ok.1 h
  obtain ⟨u, _, h⟩ := py_bind_eq_ok.1 h
  obtain rfl := Except.ok.inj h
  have key : ∀ v : Option Val, cfgOf v = .null ↔ v = none := by
    intro v
    cases v with
    | none => exact ⟨fun _ => rfl, fun _ => rfl⟩
    | some v =>
      refine ⟨fun c => ?_, fun c => by cases c⟩
      cases v with
      | dict d => cases c
      | leaf l =>
        cases l with
        | str s => cases c
        | strs l => cases c
        | num x => cases c
        | arr l =>
          change (finiteOf l).elim Cfg.other Cfg.nums = Cfg.null at c
          cases hl : finiteOf l <;> rw [hl] at c <;> cases c
  exact ⟨key _, key _, fun x hx => by
    show cfgOf i.mosaicH = _
    rw [hx]; rfl, fun x hx => by
    show cfgOf i.mosaicV = _
    rw [hx]; rfl⟩

namespace Demo

/-- Two texts, one with white space and an exponent, stored as 1.5 and -200. -/
example : ∃ root, toNexus (typedEntry "temp".toList "NX_FLOAT".toList (.strs ["1.5".toList, " -2e2".toList])) "scan0001".toList H5.empty = .ok root ∧
    ∃ r, fromNexus root none = .ok r ∧ (view r ["scan0001".toList, "temp".toList]).map Prod.fst = some (some (.fin [3 / 2, -200])) := by
  have h := C43_numerals (k := "temp".toList) (plain_of _ (by decide)) (name := "scan0001".toList) (plain_of _ (by decide))
    (l := ["1.5".toList, " -2e2".toList]) (ns := [⟨none, ['1'], some ['5'], none, false⟩, ⟨some true, ['2'], none, some (none, ['2']), false⟩])
    (.cons ⟨by simp [Numeral.Valid, Digits]; decide, trim_iff.2 (by decide)⟩
      (.cons ⟨by simp [Numeral.Valid, Digits]; decide, trim_iff.2 (by decide)⟩ .nil))
  have e : ([⟨none, ['1'], some ['5'], none, false⟩, ⟨some true, ['2'], none, some (none, ['2']), false⟩] : List Numeral).map
      (fun n => ((n.value : ℚ) : ℝ)) = [3 / 2, -200] := by
    simp [Numeral.value, Numeral.mant, Numeral.exponent, signFactor, decVal]
    norm_num
  rw [e] at h
  exact h

/-- Two texts stored as the whole numbers 12 and -3. -/
example : ∃ root, toNexus (typedEntry "counts".toList "NX_INT".toList (.strs ["12".toList, "-3".toList])) "scan0001".toList H5.empty = .ok root ∧
    ∃ r, fromNexus root none = .ok r ∧ (view r ["scan0001".toList, "counts".toList]).map Prod.fst = some (some (.fin [12, -3])) := by
  have h := C43_whole_numbers (k := "counts".toList) (plain_of _ (by decide)) (name := "scan0001".toList) (plain_of _ (by decide))
    [(none, ['1', '2']), (some true, ['3'])] (by simp; decide)
  have e : ([(none, ['1', '2']), (some true, ['3'])] : List (Option Bool × Str)).map (fun n => ((signFactor n.1 * decVal n.2 : ℤ) : ℝ)) = [12, -3] := by
    simp [signFactor, decVal, Nat.ofDigits]
  rw [e] at h
  exact h

/-- A text that is no number. -/
example : toNexus (typedEntry "temp".toList "NX_FLOAT".toList (.strs ["1.5".toList, "on".toList])) "scan0001".toList H5.empty = .error .valueError :=
  C43_not_numbers (plain_of _ (by decide)) _ _ (s := "on".toList) (by simp) (fun q => by
    rw [show pyFloat "on".toList = .error .valueError by rfl]; intro h; cases h)

end Demo

end Tavi
