import Verif.Props.Builder

/-!
# Columns of a SPICE file in the entry (C75)
-/

namespace Tavi

open Spec

namespace Spec

/-- The columns that keep their names. -/
def sameName : List Str :=
  ["ei", "m1", "m2", "mfocus", "marc", "mtrans", "focal_length",
   "ef", "a1", "a2", "afocus",
   "qm1", "xm1", "qm2", "xm2", "qm3", "xm3", "qm4", "xm4", "qm5", "xm5", "qm6", "xm6", "qm7", "xm7", "qm8", "xm8",
   "bat", "bab", "bal", "bar", "bbt", "bbb", "bbl", "bbr",
   "slita_lf", "slita_rt", "slita_tp", "slita_bt", "slitb_lf", "slitb_rt", "slitb_tp", "slitb_bt",
   "slit_pre_lf", "slit_pre_rt", "slit_pre_tp", "slit_pre_bt",
   "fguide", "hguide", "vguide",
   "s1", "s2", "sgu", "sgl", "stu", "stl", "omega", "two_theta", "2theta", "chi", "phi",
   "q",
   "temp", "temp_a", "temp_2", "coldtip", "tsample", "sample", "vti", "dr_tsample", "dr_temp", "lt", "ht", "sorb_temp",
   "sorb", "sample_ht", "persistent_field", "mag_i"].map String.toList

/-- The columns that get another name. -/
def renamed : List (Str × Str) :=
  [("h".toList, "qh".toList), ("k".toList, "qk".toList), ("l".toList, "ql".toList), ("e".toList, "en".toList)]

/-- The name with a number behind it. -/
def withNumber (s : Str) (i : ℕ) : Str := s ++ '_' :: decStr i

/-- `KnownColumn polarised n c name int`: in a file with `n` numbered detectors the column `c` is known, under the given name;
`int` tells whether it holds counts. -/
inductive KnownColumn (polarised : Prop) (n : ℕ) : Str → Str → Bool → Prop
  | same {c : Str} (h : c ∈ sameName) : KnownColumn polarised n c c false
  | renamed {c name : Str} (h : (c, name) ∈ renamed) : KnownColumn polarised n c name false
  | detector : KnownColumn polarised n "detector".toList "detector".toList true
  | point : KnownColumn polarised n "Pt.".toList "Pt.".toList true
  | time (h : ¬ polarised) : KnownColumn polarised n "time".toList "time".toList false
  | mcu (h : ¬ polarised) : KnownColumn polarised n "mcu".toList "mcu".toList false
  | monitor (h : ¬ polarised) : KnownColumn polarised n "monitor".toList "monitor".toList true
  | detectors {i : ℕ} (h1 : 1 ≤ i) (hn : i ≤ n) :
      KnownColumn polarised n (withNumber "detector".toList i) (withNumber "detector".toList i) true
  | times {i : ℕ} (h : polarised) (h1 : 1 ≤ i) (hn : i ≤ n) :
      KnownColumn polarised n (withNumber "time".toList i) (withNumber "time".toList i) false
  | mcus {i : ℕ} (h : polarised) (h1 : 1 ≤ i) (hn : i ≤ n) :
      KnownColumn polarised n (withNumber "mcu".toList i) (withNumber "mcu".toList i) false
  | monitors {i : ℕ} (h : polarised) (h1 : 1 ≤ i) (hn : i ≤ n) :
      KnownColumn polarised n (withNumber "monitor".toList i) (withNumber "monitor".toList i) true

/-- `n` is the number of detectors numbered without a gap among the columns. -/
def Detectors (columns : List Str) (n : ℕ) : Prop :=
  (∀ i, 1 ≤ i → i ≤ n → withNumber "detector".toList i ∈ columns) ∧
  withNumber "detector".toList (n + 1) ∉ columns

/-- The whole number next to `x` on the side of zero. -/
def toZero (x : ℚ) : ℤ := if 0 ≤ x then ⌊x⌋ else -⌊-x⌋

/-- The numbers the entry shows for those in the file; `none` is a number that is not finite. -/
noncomputable def shown (int : Bool) (qs : List (Option ℚ)) : List (Option ℝ) :=
  qs.map (Option.map fun q => if int then ((toZero q : ℤ) : ℝ) else (q : ℝ))

end Spec

/-! ## The number of detectors -/

theorem suffixed_eq (s : Str) (i : ℕ) : suffixed s i = withNumber s i := by
  rw [suffixed, withNumber, List.append_assoc]; rfl

theorem numbered_inj {s : Str} {i j : ℕ} (h : suffixed s i = suffixed s j) : i = j := by
  rw [suffixed, suffixed] at h
  exact decStr_injective (List.append_cancel_left h)

theorem detLoop_le (logs : List (Str × LogVal)) (fuel idx : ℕ) : detLoop logs fuel idx ≤ fuel := by
  induction fuel generalizing idx with
  | zero => exact le_refl 0
  | succ f ih =>
    rw [detLoop]
    split
    · have := ih (idx + 1); omega
    · omega

theorem lookup_isSome {β : Type} (l : List (Str × β)) (k : Str) : (lookupKey k l).isSome = true ↔ k ∈ l.map Prod.fst := by
  rw [Option.isSome_iff_ne_none, ne_eq, lookupKey_eq_none, not_not]

theorem detLoop_in (logs : List (Str × LogVal)) (fuel idx i : ℕ) (h1 : idx ≤ i) (h2 : i < idx + detLoop logs fuel idx) :
    suffixed "detector".toList i ∈ logs.map Prod.fst := by
  induction fuel generalizing idx with
  | zero => rw [detLoop] at h2; omega
  | succ f ih =>
    rw [detLoop] at h2
    split at h2
    · rename_i hs
      by_cases hi : i = idx
      · rw [hi]; exact (lookup_isSome _ _).1 hs
      · exact ih (idx + 1) (by omega) (by omega)
    · omega

theorem detLoop_stop (logs : List (Str × LogVal)) (fuel idx : ℕ) (h : detLoop logs fuel idx < fuel) :
    suffixed "detector".toList (idx + detLoop logs fuel idx) ∉ logs.map Prod.fst := by
  induction fuel generalizing idx with
  | zero => omega
  | succ f ih =>
    rw [detLoop] at h ⊢
    split
    · rename_i hs
      rw [if_pos hs] at h
      have := ih (idx + 1) (by omega)
      rwa [show idx + (detLoop logs f (idx + 1) + 1) = idx + 1 + detLoop logs f (idx + 1) by omega]
    · rename_i hs
      rw [lookup_isSome] at hs
      exact hs

theorem mem_oneTo {i n : ℕ} : i ∈ oneTo n ↔ 1 ≤ i ∧ i ≤ n := by
  rw [oneTo, List.mem_map]
  constructor
  · rintro ⟨j, hj, rfl⟩
    rw [List.mem_range] at hj
    omega
  · rintro ⟨h1, h2⟩
    exact ⟨i - 1, by rw [List.mem_range]; omega, by omega⟩

theorem nodup_oneTo (n : ℕ) : (oneTo n).Nodup := List.nodup_range.map (fun _ _ h => Nat.succ.inj h)

/-- The loop counts the detectors numbered without a gap. -/
theorem detectors_iff (logs : List (Str × LogVal)) (n : ℕ) : Spec.Detectors (logs.map Prod.fst) n ↔ nDet logs = n := by
  have hle := detLoop_le logs logs.length 1
  have hin : ∀ i, 1 ≤ i → i ≤ nDet logs → suffixed "detector".toList i ∈ logs.map Prod.fst := fun i h1 h2 =>
    detLoop_in logs logs.length 1 i h1 (by unfold nDet at h2; omega)
  have hstop : suffixed "detector".toList (nDet logs + 1) ∉ logs.map Prod.fst := by
    rcases Nat.lt_or_ge (nDet logs) logs.length with h | h
    · have := detLoop_stop logs logs.length 1 h
      rwa [Nat.add_comm] at this
    · intro hmem
      have hsub : (oneTo (nDet logs + 1)).map (suffixed "detector".toList) ⊆ logs.map Prod.fst := by
        intro s hs
        obtain ⟨i, hi, rfl⟩ := List.mem_map.1 hs
        rw [mem_oneTo] at hi
        rcases Nat.lt_or_ge (nDet logs) i with h' | h'
        · rwa [show i = nDet logs + 1 by omega]
        · exact hin i hi.1 h'
      have hnd : ((oneTo (nDet logs + 1)).map (suffixed "detector".toList)).Nodup :=
        (nodup_oneTo _).map (fun _ _ h => numbered_inj h)
      have := (hnd.subperm hsub).length_le
      rw [List.length_map, List.length_map, oneTo, List.length_map, List.length_range] at this
      omega
  simp only [Spec.Detectors, ← suffixed_eq]
  constructor
  · rintro ⟨h1, h2⟩
    rcases Nat.lt_trichotomy n (nDet logs) with h | h | h
    · exact absurd (hin (n + 1) (by omega) (by omega)) h2
    · exact h.symm
    · exact absurd (h1 (nDet logs + 1) (by omega) (by omega)) hstop
  · rintro rfl
    exact ⟨hin, hstop⟩

/-! ## Where a name can be -/

/-- The fixed names of each group, in the order of `Pieces.groups`. -/
def fixedK : List (List Str) :=
  [srcK, monoK, collK, anaK, ["data".toList], slitNames, flipperNames, goniK,
   ["preset_type".toList, "countfile".toList, "mode".toList, "preset".toList, "time".toList, "monitor".toList, "mcu".toList],
   sampK, userK]

/-- The names that are numbered. -/
def numNames : List Str := ["detector".toList, "mode".toList, "preset".toList, "time".toList, "monitor".toList, "mcu".toList,
  "label".toList]

theorem decStr_head (i : ℕ) : ∃ c s, decStr i = c :: s ∧ isDigit c = true := by
  obtain ⟨_, h2, h3⟩ := decStr_spec i
  cases h : decStr i with
  | nil => exact absurd h h3
  | cons c s =>
    rw [h, List.all_cons, Bool.and_eq_true] at h2
    exact ⟨c, s, rfl, h2.1⟩

/-- The name is not numbered: no numbered name followed by `_` and a digit begins it. -/
def NotNumbered (k : Str) : Prop :=
  ∀ q ∈ numNames, (List.isPrefixOf (q ++ "_".toList) k && (k.drop (q.length + 1)).head?.any isDigit) = false

instance (k : Str) : Decidable (NotNumbered k) := inferInstanceAs (Decidable (∀ q ∈ numNames, _))

theorem NotNumbered.ne {k : Str} (h : NotNumbered k) {q : Str} (hq : q ∈ numNames) (i : ℕ) : k ≠ suffixed q i := by
  rintro rfl
  have := h q hq
  rw [Bool.and_eq_false_iff] at this
  rcases this with h | h
  · have hp : List.isPrefixOf (q ++ "_".toList) (suffixed q i) = true := by
      rw [List.isPrefixOf_iff_prefix, suffixed]; exact List.prefix_append _ _
    rw [hp] at h; exact absurd h (by simp)
  · obtain ⟨c, s, hc, hd⟩ := decStr_head i
    have : (suffixed q i).drop (q.length + 1) = decStr i := by
      have hl : q.length + 1 = (q ++ "_".toList).length := by simp
      rw [suffixed, hl, List.drop_left]
    rw [this, hc] at h
    simp [hd] at h

/-- The name belongs to group `i` only. -/
def Lone (i : ℕ) (k : Str) : Prop := ∀ j ∈ List.range 11, j ≠ i → k ∉ fixedK.getD j []

instance (i : ℕ) (k : Str) : Decidable (Lone i k) := inferInstanceAs (Decidable (∀ j ∈ List.range 11, _))

section
variable {iso : Str → Py Str} {logs : List (Str × LogVal)} {p : Pieces}

theorem monK_sub (md : List (Str × MetaVal)) (n : ℕ) (k : Str) (h : k ∈ monK md n) :
    k ∈ fixedK.getD 8 [] ∨ ∃ q ∈ numNames, ∃ i, k = suffixed q i := by
  unfold monK at h
  split at h
  · left; revert h; revert k; decide
  · split at h
    · rw [List.mem_append] at h
      rcases h with h | h
      · left; revert h; revert k; decide
      · right
        obtain ⟨i, _, h⟩ := List.mem_flatMap.1 h
        simp only [chanK, List.mem_cons, List.not_mem_nil, or_false] at h
        rcases h with rfl | rfl | rfl | rfl | rfl | rfl
        · exact ⟨"mode".toList, by decide, i, rfl⟩
        · exact ⟨"preset".toList, by decide, i, rfl⟩
        · exact ⟨"time".toList, by decide, i, rfl⟩
        · exact ⟨"monitor".toList, by decide, i, rfl⟩
        · exact ⟨"mcu".toList, by decide, i, rfl⟩
        · exact ⟨"label".toList, by decide, i, rfl⟩
    · left; revert h; revert k; decide

theorem Made.flats (h : Made iso logs p) (j : ℕ) (hj : j < 11) : ∃ K, Flat (p.groups.getD j .nil) K ∧
    ∀ k ∈ K, k ∈ fixedK.getD j [] ∨ ∃ q ∈ numNames, ∃ i, k = suffixed q i := by
  interval_cases j
  · exact ⟨_, h.flat_src, fun k hk => .inl hk⟩
  · exact ⟨_, h.flat_mono, fun k hk => .inl hk⟩
  · exact ⟨_, h.flat_coll, fun k hk => .inl hk⟩
  · exact ⟨_, h.flat_ana, fun k hk => .inl hk⟩
  · refine ⟨_, h.flat_det, fun k hk => ?_⟩
    rw [detK, List.mem_cons] at hk
    rcases hk with rfl | hk
    · exact .inl (by decide)
    · obtain ⟨i, _, rfl⟩ := List.mem_map.1 hk
      exact .inr ⟨"detector".toList, by decide, i, rfl⟩
  · exact ⟨_, h.flat_slits, fun k hk => .inl hk⟩
  · exact ⟨_, h.flat_flip, fun k hk => .inl hk⟩
  · exact ⟨_, h.flat_goni, fun k hk => .inl hk⟩
  · exact ⟨_, h.flat_mon, monK_sub _ _⟩
  · exact ⟨_, h.flat_samp, fun k hk => .inl hk⟩
  · exact ⟨_, h.flat_user, fun k hk => .inl hk⟩

theorem groups_index (p : Pieces) {g : Dict} (hg : g ∈ p.groups) : ∃ j < 11, g = p.groups.getD j .nil := by
  obtain ⟨j, hj, rfl⟩ := List.mem_iff_getElem.1 hg
  exact ⟨j, hj, by rw [List.getD_eq_getElem?_getD, List.getElem?_eq_getElem hj]; rfl⟩

/-- What a group gives for a name. -/
theorem flat_item {e : Dict} {K : List Str} (h : Flat e K) {k : Str} (hp : Plain k) :
    (e.get? k = none ∧ ∀ ks b, getItem e (k :: ks) b = .ok none) ∨
    ∃ x a, e.get? k = some (.dict (nxDs x a)) ∧ getItem e [k] false = .ok (some (.leaf x)) := by
  cases hg : e.get? k with
  | none => exact .inl ⟨rfl, fun ks b => h.item_none hp hg ks b⟩
  | some v =>
    rcases h.sub k v (mem_items_of_get? hg) with ⟨h1, _⟩ | ⟨_, x, a, rfl⟩
    · exact absurd h1 hp.1
    · exact .inr ⟨x, a, rfl, item_found hg⟩

theorem Made.top_none (h : Made iso logs p) {k : Str} (hk' : k ∉ topK) : (dropLogs p.entry).get? k = none := by
  cases hg : (dropLogs p.entry).get? k with
  | none => rfl
  | some v => exact absurd (h.top_items (mem_items_of_get? hg)).1 hk'

/-- A name of one group only: the entry gives what that group holds. -/
theorem Made.lone (h : Made iso logs p) {k : Str} (i : ℕ) (hi : i < 11) (hp : Plain k) (hk : k ∉ instK) (hk' : k ∉ topK)
    (hl : ∀ j < 11, j ≠ i → (p.groups.getD j .nil).get? k = none) :
    ((p.groups.getD i .nil).get? k = none → getItem (dropLogs p.entry) [k] false = .ok none) ∧
    (∀ x a, (p.groups.getD i .nil).get? k = some (.dict (nxDs x a)) →
      getItem (dropLogs p.entry) [k] false = .ok (some (.leaf x))) := by
  have hothers : ∀ g ∈ p.groups, getItem g [k] false = .ok none ∨ g = p.groups.getD i .nil := by
    intro g hg
    obtain ⟨j, hj, rfl⟩ := groups_index p hg
    by_cases hij : j = i
    · exact .inr (by rw [hij])
    · obtain ⟨K, hf, _⟩ := h.flats j hj
      exact .inl (hf.item_none hp (hl j hj hij) [] false)
  obtain ⟨K, hf, _⟩ := h.flats i hi
  constructor
  · intro hn
    have hno : ∀ g ∈ p.groups, getItem g [k] false = .ok none := fun g hg =>
      (hothers g hg).elim id (fun e => by rw [e]; exact hf.item_none hp hn [] false)
    exact (h.search (x := .dict .nil) hp hk (h.top_none hk') fun g hg => .inl (hno g hg)).1 hno
  · intro x a hx
    have hfound := item_found hx
    refine (h.search (x := .leaf x) hp hk (h.top_none hk') fun g hg => ?_).2 ⟨_, ?_, hfound⟩
    · exact (hothers g hg).imp id (fun e => by rw [e]; exact hfound)
    · rw [List.getD_eq_getElem?_getD, List.getElem?_eq_getElem (show i < p.groups.length from hi)]
      exact List.getElem_mem _

theorem Made.others_none (h : Made iso logs p) {k : Str} {i : ℕ} (hp : Plain k) (hl : Lone i k) (hn : NotNumbered k) :
    ∀ j < 11, j ≠ i → (p.groups.getD j .nil).get? k = none := by
  intro j hj hij
  obtain ⟨K, hf, hK⟩ := h.flats j hj
  refine hf.get_none (fun hk => ?_) hp
  rcases hK k hk with h' | ⟨q, hq, m, h'⟩
  · exact hl j (List.mem_range.2 hj) hij h'
  · exact hn.ne hq m h'

/-! ## Values of columns -/

/-- What is stored for a column. -/
noncomputable def colField (int : Bool) (c : Option (List (Option ℚ))) (a : List (Str × Str)) : Py (Option Dict) :=
  if int then dsIntCol c a else dsFloatCol c a

theorem truncInt_eq (x : ℚ) : truncInt x = Spec.toZero x := by
  unfold truncInt Spec.toZero
  split
  · rfl
  · rw [Int.floor_neg, neg_neg]

theorem mapM_need {β : Type} (qs : List β) (e : PyErr) : (qs.map some).mapM (fun x => need x e) = .ok qs := by
  induction qs with
  | nil => rfl
  | cons q qs ih => rw [List.map_cons, List.mapM_cons, ih]; rfl

theorem mapM_need_inv {β : Type} : ∀ {l : List (Option β)} {e : PyErr} {qs : List β},
    l.mapM (fun x => need x e) = .ok qs → l = qs.map some
  | [], _, _, h => by rw [List.mapM_nil] at h; obtain rfl := Except.ok.inj h; rfl
  | x :: l, e, qs, h => by
    rw [List.mapM_cons] at h
    obtain ⟨y, hy, h⟩ := py_bind_eq_ok.1 h
    obtain ⟨ys, hys, h⟩ := py_bind_eq_ok.1 h
    obtain rfl := Except.ok.inj h
    rw [mapM_need_inv hys, need_eq_ok.1 hy]; rfl

theorem colField_some {int : Bool} {qs : List (Option ℚ)} {a : List (Str × Str)} {o : Option Dict}
    (h : colField int (some qs) a = .ok o) : ∃ a', o = some (nxDs (.arr (Spec.shown int qs)) a') := by
  cases int with
  | false =>
    refine ⟨("type".toList, "NX_FLOAT".toList) :: a, ?_⟩
    obtain rfl := Except.ok.inj h
    simp only [floats, Spec.shown, Bool.false_eq_true, if_false]
  | true =>
    refine ⟨("type".toList, "NX_INT".toList) :: a, ?_⟩
    obtain ⟨rs, hrs, rfl⟩ := map_eq_ok.1 h
    rw [mapM_need_inv hrs]
    simp only [reals, Leaf.fin, Spec.shown, if_true, List.map_map]
    refine congrArg (fun l => some (nxDs (.arr l) _)) (List.map_congr_left fun q _ => ?_)
    simp only [Function.comp, truncInt_eq, Option.map_some]
    push_cast
    rfl

theorem colField_none (int : Bool) (a : List (Str × Str)) : colField int none a = .ok none := by cases int <;> rfl

/-- A column as a member of a group. -/
theorem column_of_member {fs : List Field} {at' : List (Str × Str)} {g : Dict} (hg : addMembers fs (nxEntry at') = .ok g)
    (hnd : (fs.map Prod.fst).Nodup) {n : Str} (hp : Plain n) {int : Bool} {c : Option (List (Option ℚ))}
    {a : List (Str × Str)} (hm : (n, colField int c a) ∈ fs) :
    (c = none → g.get? n = none) ∧
    (∀ qs, c = some qs → ∃ a', g.get? n = some (.dict (nxDs (.arr (Spec.shown int qs)) a'))) := by
  obtain ⟨o, ho, hget⟩ := (addMembers_get hg hnd).2 n _ hm
  have hb : (nxEntry at').get? n = none := by rw [nxEntry, Dict.get?, if_neg (Ne.symm hp.1)]; rfl
  rw [hb, Option.or_none] at hget
  refine ⟨fun hc => ?_, fun qs hc => ?_⟩
  · rw [hc, colField_none] at ho
    obtain rfl := Except.ok.inj ho
    exact hget
  · rw [hc] at ho
    obtain ⟨a', rfl⟩ := colField_some ho
    exact ⟨a', hget⟩

theorem colOf_eq {c : Str} {l : List (Option ℚ)} (h : lookupKey c logs = some (.col l)) : colOf logs c = some l := by
  rw [colOf, h]

theorem colOf_none {c : Str} (h : lookupKey c logs = none) : colOf logs c = none := by rw [colOf, h]

/-! ## Distinct names -/

theorem takeWhile_numbered {q : Str} (hq : '_' ∉ q) (i : ℕ) : (suffixed q i).takeWhile (· != '_') = q := by
  rw [suffixed, List.append_assoc, List.takeWhile_append_of_pos]
  · simp
  · intro c hc
    have : c ≠ '_' := by rintro rfl; exact hq hc
    simpa using this

theorem numbered_inj2 {q r : Str} (hq : '_' ∉ q) (hr : '_' ∉ r) {i j : ℕ} (h : suffixed q i = suffixed r j) :
    q = r ∧ i = j := by
  have h1 := takeWhile_numbered hq i
  rw [h, takeWhile_numbered hr] at h1
  subst h1
  exact ⟨rfl, numbered_inj h⟩

theorem numNames_plain : ∀ q ∈ numNames, '_' ∉ q := by decide

/-- The names of a channel without the number. -/
def chanNames : List Str := ["mode".toList, "preset".toList, "time".toList, "monitor".toList, "mcu".toList, "label".toList]

theorem chanK_eq (i : ℕ) : chanK i = chanNames.map fun q => suffixed q i := rfl

theorem chanNames_plain : ∀ q ∈ chanNames, '_' ∉ q := by decide

theorem nodup_chans (n : ℕ) : ((oneTo n).flatMap chanK).Nodup := by
  rw [List.nodup_flatMap]
  constructor
  · intro i _
    rw [chanK_eq]
    refine (show chanNames.Nodup by decide).map_on fun q hq r hr h => ?_
    exact (numbered_inj2 (chanNames_plain q hq) (chanNames_plain r hr) h).1
  · refine (nodup_oneTo n).imp ?_
    intro i j hij
    rw [Function.onFun, List.disjoint_left]
    intro k hk hk'
    rw [chanK_eq, List.mem_map] at hk hk'
    obtain ⟨q, hq, rfl⟩ := hk
    obtain ⟨r, hr, h⟩ := hk'
    exact hij (numbered_inj2 (chanNames_plain r hr) (chanNames_plain q hq) h).2.symm

theorem nodup_det (logs : List (Str × LogVal)) : ((detFields logs).map Prod.fst).Nodup := by
  rw [det_fst, detK, List.nodup_cons]
  constructor
  · intro h
    obtain ⟨i, _, h⟩ := List.mem_map.1 h
    exact (show NotNumbered "data".toList by decide).ne (q := "detector".toList) (by decide) i h.symm
  · exact (nodup_oneTo _).map (fun _ _ h => numbered_inj h)

theorem nodup_mon (logs : List (Str × LogVal)) (md : List (Str × MetaVal)) : ((monitorFields logs md).map Prod.fst).Nodup := by
  rw [mon_fst]
  unfold monK
  split
  · decide
  · split
    · rw [List.nodup_append]
      refine ⟨by decide, nodup_chans _, ?_⟩
      intro a ha b hb hab
      subst hab
      obtain ⟨i, _, hb⟩ := List.mem_flatMap.1 hb
      rw [chanK_eq, List.mem_map] at hb
      obtain ⟨q, hq, rfl⟩ := hb
      have hq' : q ∈ numNames := List.mem_cons_of_mem _ hq
      have hn : ∀ s ∈ ["preset_type".toList, "countfile".toList], NotNumbered s := by decide
      exact (hn _ ha).ne hq' i rfl
    · decide

/-! ## Columns in their groups -/

/-- A column that belongs to one group. -/
structure Sits (logs : List (Str × LogVal)) (p : Pieces) (i : ℕ) (c n : Str) (int : Bool) : Prop where
  none : colOf logs c = none → (p.groups.getD i .nil).get? n = none
  some : ∀ qs, colOf logs c = some qs →
    ∃ a, (p.groups.getD i .nil).get? n = some (.dict (nxDs (.arr (Spec.shown int qs)) a))

theorem sits {fs : List Field} {at' : List (Str × Str)} {i : ℕ} (hg : addMembers fs (nxEntry at') = .ok (p.groups.getD i .nil))
    (hnd : (fs.map Prod.fst).Nodup) {n c : Str} (hp : Plain n) {int : Bool}
    {a : List (Str × Str)} (hm : (n, colField int (colOf logs c) a) ∈ fs) : Sits logs p i c n int :=
  ⟨fun hc => (column_of_member hg hnd hp hm).1 hc, fun qs hc => (column_of_member hg hnd hp hm).2 qs hc⟩

instance (k : Str) : Decidable (Plain k) := inferInstanceAs (Decidable (_ ∧ _))

/-- The names without any trouble: not special, not a group, not suffixed, of one group only. -/
def Free (i : ℕ) (k : Str) : Prop := Plain k ∧ k ∉ instK ∧ k ∉ topK ∧ Lone i k ∧ NotNumbered k ∧ '/' ∉ k

instance (i : ℕ) (k : Str) : Decidable (Free i k) := inferInstanceAs (Decidable (_ ∧ _))

theorem Made.free (h : Made iso logs p) {i : ℕ} (hi : i < 11) {c n : Str} {int : Bool} (hf : Free i n)
    (hs : Sits logs p i c n int) :
    (colOf logs c = none → getItem (dropLogs p.entry) [n] false = .ok none) ∧
    (∀ qs, colOf logs c = some qs →
      getItem (dropLogs p.entry) [n] false = .ok (some (.leaf (.arr (Spec.shown int qs))))) := by
  obtain ⟨hp, h1, h2, h3, h4, _⟩ := hf
  have hl := h.lone i hi hp h1 h2 (h.others_none hp h3 h4)
  refine ⟨fun hc => hl.1 (hs.none hc), fun qs hc => ?_⟩
  obtain ⟨a, ha⟩ := hs.some qs hc
  exact hl.2 _ a ha

/-- A name that is not read by another path. -/
theorem get_free {d : Dict} (qs : List (Str × Bool)) {n : Str} (h1 : n ≠ "detector".toList) (h2 : n ≠ "monitor".toList)
    (h3 : n ≠ "sample".toList) (h4 : '/' ∉ n) :
    (nxGet (afterReads d qs) n false).1 = getItem (dropLogs d) [n] false := by
  rw [C42_history, nxGet, specialKey, if_neg (by simp), if_neg h1, if_neg h2, if_neg h3, splitChar_plain h4]

/-! ## Paths -/

theorem path_hit {d g : Dict} {G k : Str} {x : Leaf} {a : List (Str × Str)} (h1 : d.get? G = some (.dict g))
    (h2 : g.get? k = some (.dict (nxDs x a))) : getItem d [G, k] false = .ok (some (.leaf x)) :=
  getItem_hit (f := nxDs x a) (by rw [walk, h1]; show walk g [k] = _; rw [walk, h2]; rfl) rfl

/-- A path into a component of the instrument. -/
theorem Made.comp (h : Made iso logs p) {C k : Str} {g : Dict} (hC : (C, g) ∈ p.comps) :
    (g.get? k = none → getItem (dropLogs p.entry) [C, k] false = .ok none) ∧
    (∀ x a, g.get? k = some (.dict (nxDs x a)) → getItem (dropLogs p.entry) [C, k] false = .ok (some (.leaf x))) := by
  have hin : C ∈ instK.take 8 := List.mem_map_of_mem (f := Prod.fst) hC
  have hprop : ∀ s ∈ instK.take 8, Plain s ∧ s ∉ topK ∧ s ∉ sampK ∧ s ∉ userK ∧ s ∉ fixedK.getD 8 [] ∧ NotNumbered s := by
    decide
  obtain ⟨hp, htop, hs, hu, hm, hn⟩ := hprop C hin
  have hnone : (dropLogs p.entry).get? C = none := by
    cases hg : (dropLogs p.entry).get? C with
    | none => rfl
    | some v => exact absurd (h.top_items (mem_items_of_get? hg)).1 htop
  have hmon : p.mon.get? C = none := by
    refine h.flat_mon.get_none (fun hk => ?_) hp
    rcases monK_sub _ _ _ hk with h' | ⟨q, hq, i, h'⟩
    · exact hm h'
    · exact hn.ne hq i h'
  have hrest : ∀ k' e, (k', Val.dict e) ∈ items (dropLogs p.entry) → Plain k' → e = p.inst ∨
      getItem e [C, k] false = .ok none := by
    intro k' e hmem hp'
    rcases (h.top_items hmem).2 with h' | h' | ⟨y, a, h'⟩ | h' | h' | h' | h'
    · exact absurd h' hp'.1
    · obtain rfl : e = buildData p.md := by simpa using h'
      exact .inr (getItem_data _ hp _ _)
    · obtain rfl : e = nxDs y a := by simpa using h'
      exact .inr (getItem_nxDs y a hp _ _)
    · exact .inl (by simpa using h')
    · obtain rfl : e = p.mon := by simpa using h'
      exact .inr (h.flat_mon.item_none hp hmon _ _)
    · obtain rfl : e = p.samp := by simpa using h'
      exact .inr (h.flat_samp.item_none hp (h.flat_samp.get_none hs hp) _ _)
    · obtain rfl : e = p.user := by simpa using h'
      exact .inr (h.flat_user.item_none hp (h.flat_user.get_none hu hp) _ _)
  rw [getItem_scan _ _ hnone]
  constructor
  · intro hk
    refine scanItems_none fun k' e hmem hp' => ?_
    rcases hrest k' e hmem hp' with rfl | h'
    · exact getItem_miss (inst_comp p hC) hk
    · exact h'
  · intro x a hx
    have hhit : getItem p.inst [C, k] false = .ok (some (.leaf x)) := path_hit (inst_comp p hC) hx
    refine scanItems_found (fun k' e hmem hp' => ?_) ⟨_, _, mem_items_of_get? (entry_inst p), by decide, hhit⟩
    rcases hrest k' e hmem hp' with rfl | h'
    · exact .inr hhit
    · exact .inl h'

/-! ## Every known column -/

/-- The columns of the monochromator. -/
def monoCols : List Str :=
  ["ei".toList, "m1".toList, "m2".toList, "mfocus".toList, "marc".toList, "mtrans".toList, "focal_length".toList]
/-- The first columns of the analyser. -/
def anaCols : List Str := ["ef".toList, "a1".toList, "a2".toList, "afocus".toList]

theorem sameName_eq : Spec.sameName = monoCols ++ (anaCols ++ focusNames) ++ slitNames ++ flipperNames ++ goniNames ++
    ("q".toList :: (temperatureNames ++ fieldNames)) := by decide +kernel

theorem sits_mono (h : Made iso logs p) {c : Str} (hc : c ∈ monoCols) : Sits logs p 1 c c false := by
  have hp : Plain c := (show ∀ c ∈ monoCols, Plain c by decide) c hc
  have hm : ∃ a, (c, colField false (colOf logs c) a) ∈ monoFields logs p.md := by
    simp only [monoCols, List.mem_cons, List.not_mem_nil, or_false] at hc
    rcases hc with rfl | rfl | rfl | rfl | rfl | rfl | rfl
    all_goals
      apply Exists.intro
      unfold monoFields
      repeat (first | exact List.mem_cons_self | apply List.mem_cons_of_mem)
  obtain ⟨a, hm⟩ := hm
  exact sits (p := p) (i := 1) h.hmono (by rw [mono_fst]; decide) hp hm

theorem sits_ana (h : Made iso logs p) {c : Str} (hc : c ∈ anaCols ++ focusNames) : Sits logs p 3 c c false := by
  have hp : Plain c := (show ∀ c ∈ anaCols ++ focusNames, Plain c by decide +kernel) c hc
  have hm : ∃ a, (c, colField false (colOf logs c) a) ∈ anaFields logs p.md := by
    rw [List.mem_append] at hc
    rcases hc with hc | hc
    · simp only [anaCols, List.mem_cons, List.not_mem_nil, or_false] at hc
      rcases hc with rfl | rfl | rfl | rfl
      all_goals
        apply Exists.intro
        unfold anaFields
        apply List.mem_append_left
        repeat (first | exact List.mem_cons_self | apply List.mem_cons_of_mem)
    · exact ⟨[], List.mem_append_right _ (List.mem_map_of_mem (f := ownCol logs []) hc)⟩
  obtain ⟨a, hm⟩ := hm
  exact sits (p := p) (i := 3) h.hana (by rw [ana_fst]; decide +kernel) hp hm

theorem sits_slits (h : Made iso logs p) {c : Str} (hc : c ∈ slitNames) : Sits logs p 5 c c false := by
  have hp : Plain c := (show ∀ c ∈ slitNames, Plain c by decide +kernel) c hc
  exact sits (p := p) (i := 5) h.hslits (by rw [map_fst_cols]; decide +kernel) hp
    (a := [units "cm".toList]) (List.mem_map_of_mem (f := ownCol logs [units "cm".toList]) hc)

theorem sits_flip (h : Made iso logs p) {c : Str} (hc : c ∈ flipperNames) : Sits logs p 6 c c false := by
  have hp : Plain c := (show ∀ c ∈ flipperNames, Plain c by decide +kernel) c hc
  exact sits (p := p) (i := 6) h.hflip (by rw [map_fst_cols]; decide +kernel) hp
    (a := []) (List.mem_map_of_mem (f := ownCol logs []) hc)

theorem sits_goni (h : Made iso logs p) {c : Str} (hc : c ∈ goniNames) : Sits logs p 7 c c false := by
  have hp : Plain c := (show ∀ c ∈ goniNames, Plain c by decide +kernel) c hc
  exact sits (p := p) (i := 7) h.hgoni (by rw [List.map_cons, map_fst_cols]; show goniK.Nodup; decide +kernel) hp
    (a := [units "degrees".toList])
    (List.mem_cons_of_mem _ (List.mem_map_of_mem (f := ownCol logs [units "degrees".toList]) hc))

theorem sits_samp (h : Made iso logs p) {c : Str} (hc : c ∈ "q".toList :: (temperatureNames ++ fieldNames)) :
    Sits logs p 9 c c false := by
  have hp : Plain c := (show ∀ c ∈ "q".toList :: (temperatureNames ++ fieldNames), Plain c by decide +kernel) c hc
  have hm : ∃ a, (c, colField false (colOf logs c) a) ∈ sampleFields logs p.md := by
    rw [List.mem_cons, List.mem_append] at hc
    unfold sampleFields
    rcases hc with rfl | hc | hc
    · apply Exists.intro
      apply List.mem_append_left
      apply List.mem_append_left
      repeat (first | exact List.mem_cons_self | apply List.mem_cons_of_mem)
    · exact ⟨[units "Kelvin".toList], List.mem_append_left _ (List.mem_append_right _
        (List.mem_map_of_mem (f := ownCol logs [units "Kelvin".toList]) hc))⟩
    · exact ⟨[units "Tesla".toList], List.mem_append_right _
        (List.mem_map_of_mem (f := ownCol logs [units "Tesla".toList]) hc)⟩
  obtain ⟨a, hm⟩ := hm
  exact sits (p := p) (i := 9) h.hsamp (by rw [samp_fst]; decide +kernel) hp hm

theorem sits_hkle (h : Made iso logs p) {c n : Str} (hc : (c, n) ∈ Spec.renamed) : Sits logs p 9 c n false := by
  simp only [Spec.renamed, List.mem_cons, Prod.mk.injEq, List.not_mem_nil, or_false] at hc
  have hm : ∃ a, (n, colField false (colOf logs c) a) ∈ sampleFields logs p.md := by
    rcases hc with ⟨rfl, rfl⟩ | ⟨rfl, rfl⟩ | ⟨rfl, rfl⟩ | ⟨rfl, rfl⟩
    all_goals
      apply Exists.intro
      unfold sampleFields
      apply List.mem_append_left
      apply List.mem_append_left
      repeat (first | exact List.mem_cons_self | apply List.mem_cons_of_mem)
  have hp : Plain n := by rcases hc with ⟨rfl, rfl⟩ | ⟨rfl, rfl⟩ | ⟨rfl, rfl⟩ | ⟨rfl, rfl⟩ <;> decide
  obtain ⟨a, hm⟩ := hm
  exact sits (p := p) (i := 9) h.hsamp (by rw [samp_fst]; decide +kernel) hp hm

theorem sits_pt (h : Made iso logs p) : Sits logs p 9 "Pt.".toList "Pt.".toList true := by
  have hm : ∃ a, ("Pt.".toList, colField true (colOf logs "Pt.".toList) a) ∈ sampleFields logs p.md := by
    apply Exists.intro
    unfold sampleFields
    apply List.mem_append_left
    apply List.mem_append_left
    repeat (first | exact List.mem_cons_self | apply List.mem_cons_of_mem)
  obtain ⟨a, hm⟩ := hm
  exact sits (p := p) (i := 9) h.hsamp (by rw [samp_fst]; decide +kernel) (by decide) hm

theorem sits_data (h : Made iso logs p) : Sits logs p 4 "detector".toList "data".toList true :=
  sits (p := p) (i := 4) (a := [required, units "counts".toList]) h.hdet (nodup_det _) (by decide) List.mem_cons_self

theorem sits_dets (h : Made iso logs p) {i : ℕ} (h1 : 1 ≤ i) (hn : i ≤ nDet logs) :
    Sits logs p 4 (suffixed "detector".toList i) (suffixed "detector".toList i) true := by
  refine sits (p := p) (i := 4) (a := [units "counts".toList]) h.hdet (nodup_det _) ?_
    (List.mem_cons_of_mem _ (List.mem_map.2 ⟨i, mem_oneTo.2 ⟨h1, hn⟩, rfl⟩))
  constructor
  · exact fun e => (show NotNumbered "attrs".toList by decide).ne (q := "detector".toList) (by decide) i e.symm
  · exact fun e => (show NotNumbered "dataset".toList by decide).ne (q := "detector".toList) (by decide) i e.symm

/-- The header asks for a count file. -/
def Polarised (md : List (Str × MetaVal)) : Prop := textOf md "preset_type".toList = some "countfile".toList

theorem monCols_mem {f : Field} (hpol : ¬ Polarised p.md) (hf : f ∈ monitorCols logs) :
    f ∈ monitorFields logs p.md := by
  unfold monitorFields
  split
  · exact List.mem_append_right _ hf
  · rw [if_neg (show ¬ textOf p.md "preset_type".toList = some "countfile".toList from hpol)]; exact hf

theorem sits_time (h : Made iso logs p) (hpol : ¬ Polarised p.md) : Sits logs p 8 "time".toList "time".toList false :=
  sits (p := p) (i := 8) (a := [units "seconds".toList]) h.hmon (nodup_mon _ _) (by decide)
    (monCols_mem hpol List.mem_cons_self)

theorem sits_monitor (h : Made iso logs p) (hpol : ¬ Polarised p.md) : Sits logs p 8 "monitor".toList "monitor".toList true :=
  sits (p := p) (i := 8) (a := [units "counts".toList]) h.hmon (nodup_mon _ _) (by decide)
    (monCols_mem hpol (List.mem_cons_of_mem _ List.mem_cons_self))

theorem sits_mcu (h : Made iso logs p) (hpol : ¬ Polarised p.md) : Sits logs p 8 "mcu".toList "mcu".toList false :=
  sits (p := p) (i := 8) (a := [units "mcu".toList]) h.hmon (nodup_mon _ _) (by decide)
    (monCols_mem hpol (List.mem_cons_of_mem _ (List.mem_cons_of_mem _ List.mem_cons_self)))

theorem chan_mem {f : Field} {i : ℕ} (hpol : Polarised p.md) (h1 : 1 ≤ i) (hn : i ≤ nDet logs)
    (hf : f ∈ channelFields logs p.md i) : f ∈ monitorFields logs p.md := by
  have hpol' : textOf p.md "preset_type".toList = some "countfile".toList := hpol
  unfold monitorFields
  rw [if_neg (by rw [hpol']; decide), if_pos hpol']
  exact List.mem_append_right _ (List.mem_flatMap.2 ⟨i, mem_oneTo.2 ⟨h1, hn⟩, hf⟩)

theorem numbered_plain {q : Str} (hq : q ∈ numNames) (i : ℕ) : Plain (suffixed q i) := by
  constructor
  · exact fun e => (show NotNumbered "attrs".toList by decide).ne hq i e.symm
  · exact fun e => (show NotNumbered "dataset".toList by decide).ne hq i e.symm

theorem sits_times (h : Made iso logs p) (hpol : Polarised p.md) {i : ℕ} (h1 : 1 ≤ i) (hn : i ≤ nDet logs) :
    Sits logs p 8 (suffixed "time".toList i) (suffixed "time".toList i) false := by
  refine sits (p := p) (i := 8) (a := [units "seconds".toList]) h.hmon (nodup_mon _ _) (numbered_plain (by decide) i)
    (chan_mem hpol h1 hn ?_)
  unfold channelFields
  repeat (first | exact List.mem_cons_self | apply List.mem_cons_of_mem)

theorem sits_monitors (h : Made iso logs p) (hpol : Polarised p.md) {i : ℕ} (h1 : 1 ≤ i) (hn : i ≤ nDet logs) :
    Sits logs p 8 (suffixed "monitor".toList i) (suffixed "monitor".toList i) true := by
  refine sits (p := p) (i := 8) (a := [units "counts".toList]) h.hmon (nodup_mon _ _) (numbered_plain (by decide) i)
    (chan_mem hpol h1 hn ?_)
  unfold channelFields
  repeat (first | exact List.mem_cons_self | apply List.mem_cons_of_mem)

theorem sits_mcus (h : Made iso logs p) (hpol : Polarised p.md) {i : ℕ} (h1 : 1 ≤ i) (hn : i ≤ nDet logs) :
    Sits logs p 8 (suffixed "mcu".toList i) (suffixed "mcu".toList i) false := by
  refine sits (p := p) (i := 8) (a := [units "mcu".toList]) h.hmon (nodup_mon _ _) (numbered_plain (by decide) i)
    (chan_mem hpol h1 hn ?_)
  unfold channelFields
  repeat (first | exact List.mem_cons_self | apply List.mem_cons_of_mem)

/-- What the entry gives for a known column: nothing when the file has no such column, otherwise its numbers. -/
def Gives (logs : List (Str × LogVal)) (d : Dict) (c n : Str) (int : Bool) : Prop :=
  ∀ reads, (colOf logs c = none → (nxGet (afterReads d reads) n false).1 = .ok none) ∧
    (∀ qs, colOf logs c = some qs →
      (nxGet (afterReads d reads) n false).1 = .ok (some (.leaf (.arr (Spec.shown int qs)))))

theorem Made.gives_free (h : Made iso logs p) {i : ℕ} (hi : i < 11) {c n : Str} {int : Bool} (hf : Free i n)
    (hs : Sits logs p i c n int) : Gives logs p.entry c n int := by
  intro reads
  have hne : n ≠ "detector".toList ∧ n ≠ "monitor".toList ∧ n ≠ "sample".toList := by
    refine ⟨?_, ?_, ?_⟩
    · rintro rfl; exact hf.2.1 (by decide)
    · rintro rfl; exact hf.2.2.1 (by decide)
    · rintro rfl; exact hf.2.2.1 (by decide)
  rw [get_free reads hne.1 hne.2.1 hne.2.2 hf.2.2.2.2.2]
  exact h.free hi hf hs

theorem numbered_get {d : Dict} (reads : List (Str × Bool)) {q : Str} (hq : q ∈ numNames) (i : ℕ) :
    (nxGet (afterReads d reads) (suffixed q i) false).1 = getItem (dropLogs d) [suffixed q i] false := by
  have hn : ∀ s ∈ ["detector".toList, "monitor".toList, "sample".toList], NotNumbered s := by decide
  refine get_free reads ?_ ?_ ?_ ?_
  · exact fun e => (hn _ (by decide)).ne hq i e.symm
  · exact fun e => (hn _ (by decide)).ne hq i e.symm
  · exact fun e => (hn _ (by decide)).ne hq i e.symm
  · rw [suffixed, List.mem_append, List.mem_append]
    have hs : ∀ q ∈ numNames, '/' ∉ q := by decide
    rintro ((h | h) | h)
    · exact hs q hq h
    · exact absurd h (by decide)
    · obtain ⟨_, h2, _⟩ := decStr_spec i
      have := List.all_eq_true.1 h2 _ h
      exact absurd this (by decide)

/-- A suffixed name is in no list of fixed names. -/
theorem numbered_not_fixed {q : Str} (hq : q ∈ numNames) (i : ℕ) (K : List Str) (hK : ∀ k ∈ K, NotNumbered k) :
    suffixed q i ∉ K := fun h => (hK _ h).ne hq i rfl

theorem fixed_not_numbered : ∀ j ∈ List.range 11, ∀ k ∈ fixedK.getD j [], NotNumbered k := by decide +kernel

theorem Made.gives_num (h : Made iso logs p) {g : ℕ} (hg : g < 11) {q : Str} (hq : q ∈ numNames) {i : ℕ} {int : Bool}
    (hoth : ∀ j < 11, j ≠ g → (p.groups.getD j .nil).get? (suffixed q i) = none)
    (hs : Sits logs p g (suffixed q i) (suffixed q i) int) : Gives logs p.entry (suffixed q i) (suffixed q i) int := by
  intro reads
  rw [numbered_get reads hq]
  have hl := h.lone (k := suffixed q i) g hg (numbered_plain hq i)
    (numbered_not_fixed hq i _ (by decide +kernel)) (numbered_not_fixed hq i _ (by decide +kernel)) hoth
  refine ⟨fun hc => hl.1 (hs.none hc), fun qs hc => ?_⟩
  obtain ⟨a, ha⟩ := hs.some qs hc
  exact hl.2 _ a ha

/-- Numbered detectors are in the detector group only. -/
theorem Made.num_det (h : Made iso logs p) (i : ℕ) :
    ∀ j < 11, j ≠ 4 → (p.groups.getD j .nil).get? (suffixed "detector".toList i) = none := by
  intro j hj hne
  have hpl := numbered_plain (q := "detector".toList) (by decide) i
  by_cases h8 : j = 8
  · subst h8
    refine h.flat_mon.get_none (fun hk => ?_) hpl
    have hnum : suffixed "detector".toList i ∉ fixedK.getD 8 [] :=
      numbered_not_fixed (by decide) i _ (fixed_not_numbered 8 (by decide))
    have hK : ∀ k ∈ monK p.md (nDet logs), k ∈ fixedK.getD 8 [] ∨ ∃ q ∈ chanNames, ∃ i, k = suffixed q i := by
      intro k hk
      unfold monK at hk
      split at hk
      · left; revert hk; revert k; decide
      · split at hk
        · rw [List.mem_append] at hk
          rcases hk with hk | hk
          · left; revert hk; revert k; decide
          · obtain ⟨i, _, hk⟩ := List.mem_flatMap.1 hk
            rw [chanK_eq, List.mem_map] at hk
            obtain ⟨q, hq, rfl⟩ := hk
            exact .inr ⟨q, hq, i, rfl⟩
        · left; revert hk; revert k; decide
    rcases hK _ hk with h' | ⟨q, hq, m, h'⟩
    · exact hnum h'
    · have := (numbered_inj2 (by decide) (chanNames_plain q hq) h').1
      subst this
      exact absurd hq (by decide)
  · obtain ⟨K, hf, hK⟩ : ∃ K, Flat (p.groups.getD j .nil) K ∧ K = fixedK.getD j [] := by
      interval_cases j
      · exact ⟨_, h.flat_src, rfl⟩
      · exact ⟨_, h.flat_mono, rfl⟩
      · exact ⟨_, h.flat_coll, rfl⟩
      · exact ⟨_, h.flat_ana, rfl⟩
      · exact absurd rfl hne
      · exact ⟨_, h.flat_slits, rfl⟩
      · exact ⟨_, h.flat_flip, rfl⟩
      · exact ⟨_, h.flat_goni, rfl⟩
      · exact absurd rfl h8
      · exact ⟨_, h.flat_samp, rfl⟩
      · exact ⟨_, h.flat_user, rfl⟩
    refine hf.get_none ?_ hpl
    rw [hK]
    exact numbered_not_fixed (by decide) i _ (fixed_not_numbered j (List.mem_range.2 hj))

/-- The names of channels are in the monitor only. -/
theorem Made.num_chan (h : Made iso logs p) {q : Str} (hq : q ∈ chanNames) (i : ℕ) :
    ∀ j < 11, j ≠ 8 → (p.groups.getD j .nil).get? (suffixed q i) = none := by
  intro j hj hne
  have hq' : q ∈ numNames := List.mem_cons_of_mem _ hq
  have hpl := numbered_plain hq' i
  obtain ⟨K, hf, hK⟩ : ∃ K, Flat (p.groups.getD j .nil) K ∧ (K = fixedK.getD j [] ∨ K = detK (nDet logs)) := by
    interval_cases j
    · exact ⟨_, h.flat_src, .inl rfl⟩
    · exact ⟨_, h.flat_mono, .inl rfl⟩
    · exact ⟨_, h.flat_coll, .inl rfl⟩
    · exact ⟨_, h.flat_ana, .inl rfl⟩
    · exact ⟨_, h.flat_det, .inr rfl⟩
    · exact ⟨_, h.flat_slits, .inl rfl⟩
    · exact ⟨_, h.flat_flip, .inl rfl⟩
    · exact ⟨_, h.flat_goni, .inl rfl⟩
    · exact absurd rfl hne
    · exact ⟨_, h.flat_samp, .inl rfl⟩
    · exact ⟨_, h.flat_user, .inl rfl⟩
  refine hf.get_none ?_ hpl
  rcases hK with rfl | rfl
  · exact numbered_not_fixed hq' i _ (fixed_not_numbered j (List.mem_range.2 hj))
  · rw [detK, List.mem_cons, not_or]
    refine ⟨fun e => (show NotNumbered "data".toList by decide).ne hq' i e.symm, fun e => ?_⟩
    obtain ⟨m, _, e⟩ := List.mem_map.1 e
    have := (numbered_inj2 (by decide) (chanNames_plain q hq) e).1
    subst this
    exact absurd hq (by decide)

theorem Made.column (h : Made iso logs p) {c n : Str} {int : Bool} (hc : Spec.KnownColumn (Polarised p.md) (nDet logs) c n int) :
    Gives logs p.entry c n int := by
  cases hc with
  | same hc =>
    rw [sameName_eq] at hc
    simp only [List.mem_append] at hc
    rcases hc with (((((hc | hc) | hc) | hc) | hc) | hc)
    · exact h.gives_free (i := 1) (by decide) ((show ∀ c ∈ monoCols, Free 1 c by decide +kernel) _ hc) (sits_mono h hc)
    · rw [← List.mem_append] at hc
      exact h.gives_free (i := 3) (by decide) ((show ∀ c ∈ anaCols ++ focusNames, Free 3 c by decide +kernel) _ hc)
        (sits_ana h hc)
    · exact h.gives_free (i := 5) (by decide) ((show ∀ c ∈ slitNames, Free 5 c by decide +kernel) _ hc) (sits_slits h hc)
    · exact h.gives_free (i := 6) (by decide) ((show ∀ c ∈ flipperNames, Free 6 c by decide +kernel) _ hc) (sits_flip h hc)
    · exact h.gives_free (i := 7) (by decide) ((show ∀ c ∈ goniNames, Free 7 c by decide +kernel) _ hc) (sits_goni h hc)
    · have hs := sits_samp h hc
      have hf : ∀ c ∈ "q".toList :: (temperatureNames ++ fieldNames), c = "sample".toList ∨ Free 9 c := by decide +kernel
      rcases hf _ hc with rfl | hf
      · intro reads
        have e : (nxGet (afterReads p.entry reads) "sample".toList false).1 =
            getItem (dropLogs p.entry) ["sample".toList, "sample".toList] false := by
          rw [C42_history, nxGet, split_special]; rfl
        rw [e]
        refine ⟨fun hc => getItem_miss (entry_samp p) (hs.none hc), fun qs hc => ?_⟩
        obtain ⟨a, ha⟩ := hs.some qs hc
        exact path_hit (entry_samp p) ha
      · exact h.gives_free (i := 9) (by decide) hf hs
  | renamed hc =>
    exact h.gives_free (i := 9) (by decide) ((show ∀ cn ∈ Spec.renamed, Free 9 cn.2 by decide +kernel) _ hc) (sits_hkle h hc)
  | detector =>
    intro reads
    have e : (nxGet (afterReads p.entry reads) "detector".toList false).1 =
        getItem (dropLogs p.entry) ["detector".toList, "data".toList] false := by
      rw [C42_history, nxGet, split_special]; rfl
    rw [e]
    have hs := sits_data h
    have hp := h.comp (k := "data".toList) (show ("detector".toList, p.det) ∈ p.comps by simp [Pieces.comps])
    refine ⟨fun hc => hp.1 (hs.none hc), fun qs hc => ?_⟩
    obtain ⟨a, ha⟩ := hs.some qs hc
    exact hp.2 _ a ha
  | point => exact h.gives_free (i := 9) (by decide) (by decide +kernel) (sits_pt h)
  | time hpol => exact h.gives_free (i := 8) (by decide) (by decide +kernel) (sits_time h hpol)
  | mcu hpol => exact h.gives_free (i := 8) (by decide) (by decide +kernel) (sits_mcu h hpol)
  | monitor hpol =>
    intro reads
    have e : (nxGet (afterReads p.entry reads) "monitor".toList false).1 =
        getItem (dropLogs p.entry) ["monitor".toList, "monitor".toList] false := by
      rw [C42_history, nxGet, split_special]; rfl
    rw [e]
    have hs := sits_monitor h hpol
    refine ⟨fun hc => getItem_miss (entry_mon p) (hs.none hc), fun qs hc => ?_⟩
    obtain ⟨a, ha⟩ := hs.some qs hc
    exact path_hit (entry_mon p) ha
  | @detectors i h1 hn =>
    rw [← suffixed_eq]
    exact h.gives_num (g := 4) (by decide) (by decide) (h.num_det i) (sits_dets h h1 hn)
  | @times i hpol h1 hn =>
    rw [← suffixed_eq]
    exact h.gives_num (g := 8) (by decide) (by decide) (h.num_chan (by decide) i) (sits_times h hpol h1 hn)
  | @mcus i hpol h1 hn =>
    rw [← suffixed_eq]
    exact h.gives_num (g := 8) (by decide) (by decide) (h.num_chan (by decide) i) (sits_mcus h hpol h1 hn)
  | @monitors i hpol h1 hn =>
    rw [← suffixed_eq]
    exact h.gives_num (g := 8) (by decide) (by decide) (h.num_chan (by decide) i) (sits_monitors h hpol h1 hn)

end

end Tavi
