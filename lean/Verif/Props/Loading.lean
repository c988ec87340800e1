import Verif.Props.Filter
import Verif.Lemmas.Dec

/-! # C55: loading a folder in parallel; C57: the next file -/

namespace Tavi

/-! ## C55 -/

theorem Project.flush_nil (p : Project) : p.flush [] = p := by
  cases p; simp [Project.flush]

theorem Project.flush_flush (p : Project) (a b : List Str) : (p.flush a).flush b = p.flush (a ++ b) := by
  simp [Project.flush, Nat.add_assoc]

theorem Project.collect_eq (p : Project) (batch rest : List Str) : p.collect batch rest = p.flush (batch ++ rest) := by
  induction rest generalizing p batch with
  | nil =>
    rw [Project.collect, List.append_nil]
    split
    · rename_i h; rw [h, Project.flush_nil]
    · rfl
  | cons r rest ih =>
    rw [Project.collect]
    split
    · rw [ih, Project.flush_flush]; simp
    · rw [ih]; simp

/-- **C55**: whatever order the workers finish in, the files of the folder are added to the project, each as often as it is
listed, the event names exactly these files, sorted, and the counters count them. -/
theorem C55_load (p : Project) (entries finished : List Str) (h : finished.Perm entries) :
    ((p.load entries finished).1.fileList = p.fileList ++ finished) ∧
    (p.load entries finished).1.fileList.Perm (p.fileList ++ entries) ∧
    (p.load entries finished).2.Perm entries ∧ (p.load entries finished).2.Pairwise (· ≤ ·) ∧
    (p.load entries finished).1.tempList = (p.load entries finished).2 ∧
    (p.load entries finished).1.totalFiles = entries.length ∧
    (p.load entries finished).1.loadedFiles = p.loadedFiles + entries.length := by
  simp only [Project.load, Project.collect_eq, Project.flush, List.nil_append]
  exact ⟨trivial, h.append_left _, (sortStr_perm _).trans h, sortStr_sorted _, trivial, trivial, by rw [h.length_eq]⟩

/-- **C55**: what is announced does not depend on the schedule. -/
theorem C55_schedule (p : Project) (entries f1 f2 : List Str) (h1 : f1.Perm entries) (h2 : f2.Perm entries) :
    (p.load entries f1).2 = (p.load entries f2).2 := by
  obtain ⟨-, -, a1, a2, -⟩ := C55_load p entries f1 h1
  obtain ⟨-, -, b1, b2, -⟩ := C55_load p entries f2 h2
  exact List.Perm.eq_of_pairwise (le := (· ≤ ·)) (fun a b _ _ h h' => le_antisymm h h') a2 b2 (a1.trans b1.symm)

/-- Successive loads; each is a listing and an order of completion. -/
def Project.loads (p : Project) (ls : List (List Str × List Str)) : Project :=
  ls.foldl (fun p l => (p.load l.1 l.2).1) p

/-- **C55**: after any number of loads every file is in the project as often as it was listed, and the counters agree with the
lists. -/
theorem C55_history (ls : List (List Str × List Str)) (h : ∀ l ∈ ls, l.2.Perm l.1) :
    (Project.new.loads ls).fileList.Perm (ls.map Prod.fst).flatten ∧
    (Project.new.loads ls).loadedFiles = (Project.new.loads ls).fileList.length ∧
    (Project.new.loads ls).totalFiles = (Project.new.loads ls).tempList.length ∧
    (∀ l, ls.getLast? = some l → (Project.new.loads ls).tempList.Perm l.1) := by
  suffices key : ∀ p : Project, p.loadedFiles = p.fileList.length → p.totalFiles = p.tempList.length →
      (p.loads ls).fileList.Perm (p.fileList ++ (ls.map Prod.fst).flatten) ∧
      (p.loads ls).loadedFiles = (p.loads ls).fileList.length ∧ (p.loads ls).totalFiles = (p.loads ls).tempList.length ∧
      (∀ l, ls.getLast? = some l → (p.loads ls).tempList.Perm l.1) by
    have := key Project.new rfl rfl
    exact this
  induction ls with
  | nil => intro p h1 h2; exact ⟨by simp [Project.loads], h1, h2, by simp⟩
  | cons l ls ih =>
    intro p h1 h2
    obtain ⟨-, c2, c3, c4, c5, c6, c7⟩ := C55_load p l.1 l.2 (h l (by simp))
    obtain ⟨d1, d2, d3, d4⟩ := ih (fun l' hl' => h l' (by simp [hl'])) (p.load l.1 l.2).1
      (by rw [c7, h1, c2.length_eq, List.length_append]) (by rw [c5, c6, c3.length_eq])
    refine ⟨?_, d2, d3, ?_⟩
    · refine d1.trans ?_
      rw [List.map_cons, List.flatten_cons, ← List.append_assoc]
      exact c2.append_right _
    · intro l' hl'
      cases ls with
      | nil =>
        obtain rfl : l = l' := by simpa using hl'
        show (p.load l.1 l.2).1.tempList.Perm l.1
        rw [c5]; exact c3
      | cons a as => exact d4 l' (by simpa [List.getLast?_cons_cons] using hl')

/-! ## C57 -/

theorem dropWhile_stop {q : Char → Bool} {a : Str} {c : Char} {b : Str} (ha : ∀ x ∈ a, q x = true) (hc : q c = false) :
    (a ++ c :: b).dropWhile q = c :: b := by
  induction a with
  | nil => exact List.dropWhile_cons_of_neg (by simp [hc])
  | cons x a ih =>
    rw [List.cons_append, List.dropWhile_cons_of_pos (ha x (by simp))]
    exact ih fun y hy => ha y (by simp [hy])

/-- Stripping a set of characters: `a` and `b` go, the middle stays. -/
theorem stripSet_mid {chars a m b : Str} (ha : ∀ x ∈ a, x ∈ chars) (hb : ∀ x ∈ b, x ∈ chars) (hm : m ≠ [])
    (h1 : ∀ c, m.head? = some c → c ∉ chars) (h2 : ∀ c, m.getLast? = some c → c ∉ chars) :
    stripSet chars (a ++ m ++ b) = m := by
  obtain ⟨c, t, rfl⟩ := List.exists_cons_of_ne_nil hm
  have e1 : (a ++ (c :: t) ++ b).dropWhile (fun c => decide (c ∈ chars)) = (c :: t) ++ b := by
    rw [List.append_assoc, List.cons_append, dropWhile_stop (fun x hx => decide_eq_true (ha x hx)) (decide_eq_false (h1 c rfl))]
  obtain ⟨t', d, htd⟩ : ∃ t' d, c :: t = t' ++ [d] := ⟨(c :: t).dropLast, (c :: t).getLast (by simp), (List.dropLast_append_getLast _).symm⟩
  rw [stripSet, e1, htd]
  have e2 : (t' ++ [d] ++ b).reverse = b.reverse ++ d :: t'.reverse := by simp
  rw [e2, dropWhile_stop (fun x hx => decide_eq_true (hb x (List.mem_reverse.1 hx)))
    (decide_eq_false (h2 d (by rw [htd]; simp)))]
  simp

theorem digit_not_mem {chars : Str} (hch : chars.all (fun c => !isDigit c) = true) {c : Char} (h : isDigit c = true) : c ∉ chars := by
  intro hc
  have := List.all_eq_true.1 hch c hc
  rw [h] at this
  exact absurd this (by decide)

theorem nextPart_scan {ds : Str} (h0 : ds ≠ []) (hd : ds.all isDigit = true) :
    nextPart ("scan".toList ++ ds ++ ".dat".toList) = .ok ("scan".toList ++ decStr (digitsVal ds + 1) ++ ".dat".toList) := by
  have hall := List.all_eq_true.1 hd
  have s1 : stripSet "scan".toList ("scan".toList ++ ds ++ ".dat".toList) = ds ++ ".dat".toList := by
    have := stripSet_mid (chars := "scan".toList) (a := "scan".toList) (m := ds ++ ".dat".toList) (b := [])
      (fun x hx => hx) (by simp) (by simp) (by
        intro c hc
        obtain ⟨d, t, rfl⟩ := List.exists_cons_of_ne_nil h0
        obtain rfl : d = c := by simpa using hc
        exact digit_not_mem (by decide) (hall d (by simp)))
      (by
        intro c hc
        rw [List.getLast?_append_of_ne_nil _ (by decide)] at hc
        have : c = 't' := by
          have h' : (".dat".toList).getLast? = some 't' := by decide
          exact (Option.some.inj (h'.symm.trans hc)).symm
        rw [this]; decide)
    rwa [List.append_nil, ← List.append_assoc] at this
  have s2 : stripSet ".dat".toList (ds ++ ".dat".toList) = ds := by
    have := stripSet_mid (chars := ".dat".toList) (a := []) (m := ds) (b := ".dat".toList) (by simp) (fun x hx => hx) h0
      (fun c hc => digit_not_mem (by decide) (hall c (List.mem_of_head? hc)))
      (fun c hc => digit_not_mem (by decide) (hall c (List.mem_of_getLast? hc)))
    exact this
  have hp : "scan".toList.isPrefixOf ("scan".toList ++ ds ++ ".dat".toList) = true := by
    rw [List.isPrefixOf_iff_prefix, List.append_assoc]; exact List.prefix_append _ _
  rw [nextPart, if_pos hp, s1, s2, pyInt_digits h0 hd]
  show Except.ok _ = _
  have : ((digitsVal ds : ℤ) + 1).toNat = digitsVal ds + 1 := by omega
  dsimp only
  rw [if_pos (by omega), this]

/-- A SPICE file name, with the scan number written as `f"{n:04}"`. -/
def Spec.spiceName (instr exp : Str) (n : ℕ) : Str :=
  instr ++ "_exp".toList ++ exp ++ "_scan".toList ++ pad4 n ++ ".dat".toList

theorem nextName_spice {instr exp : Str} (n : ℕ) (h1 : '_' ∉ instr) (h2 : ¬ "scan".toList <+: instr) (h3 : '_' ∉ exp) :
    nextName (Spec.spiceName instr exp n) =
      .ok (instr ++ "_exp".toList ++ exp ++ "_scan".toList ++ decStr (n + 1) ++ ".dat".toList) := by
  obtain ⟨p1, p2, p3⟩ := pad4_spec n
  have p0 : pad4 n ≠ [] := by intro h; rw [h] at p3; simp at p3
  have hname : Spec.spiceName instr exp n =
      joinStr ['_'] [instr, "exp".toList ++ exp, "scan".toList ++ pad4 n ++ ".dat".toList] := by
    simp [joinStr, Spec.spiceName]
  have hpad : '_' ∉ pad4 n := by
    intro h
    have := List.all_eq_true.1 p2 _ h
    exact absurd this (by decide)
  have hsp : splitChar '_' (Spec.spiceName instr exp n) =
      [instr, "exp".toList ++ exp, "scan".toList ++ pad4 n ++ ".dat".toList] := by
    rw [hname]
    refine splitChar_join (by simp) ?_
    intro p hp
    simp only [List.mem_cons, List.not_mem_nil, or_false] at hp
    rcases hp with rfl | rfl | rfl
    · exact h1
    · rw [List.mem_append, not_or]; exact ⟨by decide, h3⟩
    · rw [List.mem_append, List.mem_append, not_or, not_or]; exact ⟨⟨by decide, hpad⟩, by decide⟩
  have e1 : nextPart instr = .ok instr := by
    rw [nextPart, if_neg]
    rwa [List.isPrefixOf_iff_prefix]
  have e2 : nextPart ("exp".toList ++ exp) = .ok ("exp".toList ++ exp) := by
    rw [nextPart, if_neg]
    rw [List.isPrefixOf_iff_prefix]
    rintro ⟨t, ht⟩
    have := congrArg List.head? ht
    simp at this
  have e3 := nextPart_scan p0 p2
  rw [p1] at e3
  rw [nextName, hsp, List.mapM_cons, e1, List.mapM_cons, e2, List.mapM_cons, e3]
  show Except.ok _ = _
  simp [joinStr]

theorem pad4_eq_decStr {n : ℕ} : pad4 n = decStr n ↔ 1000 ≤ n := by
  constructor
  · intro h
    by_contra hc
    have h1 := (pad4_spec n).2.2
    have h2 := decStr_length_le (k := 3) (by norm_num) (show n < 10 ^ 3 by omega)
    rw [h] at h1
    omega
  · intro h
    have := decStr_length_gt (k := 3) (show 10 ^ 3 ≤ n by omega)
    rw [pad4, show 4 - (decStr n).length = 0 by omega]; rfl

/-- **C57** (partial): from scan 999 on the suggestion is the file of the next scan. Missing: earlier scans, see
`C57_padding_lost`. -/
theorem C57_next_partial (p : Project) (prev : Option Str) (instr exp : Str) (n : ℕ) (h1 : '_' ∉ instr)
    (h2 : ¬ "scan".toList <+: instr) (h3 : '_' ∉ exp) (hn : 999 ≤ n) (hmem : Spec.spiceName instr exp n ∈ p.fileList) :
    getNextFile p prev (Spec.spiceName instr exp n) = .ok (Spec.spiceName instr exp (n + 1)) := by
  rw [getNextFile, if_pos (by simp [Spec.spiceName]), nextName_spice n h1 h2 h3, ← pad4_eq_decStr.2 (show 1000 ≤ n + 1 by omega)]
  show (indexOf _ _).map _ = _
  rw [indexOf, if_pos hmem]; rfl

/-- **C57**, the code disagrees: before scan 999 the leading zeros are lost, the suggested file is another one. -/
theorem C57_padding_lost (p : Project) (prev : Option Str) (instr exp : Str) (n : ℕ) (h1 : '_' ∉ instr)
    (h2 : ¬ "scan".toList <+: instr) (h3 : '_' ∉ exp) (hn : n < 999) (r : Str)
    (h : getNextFile p prev (Spec.spiceName instr exp n) = .ok r) :
    r = instr ++ "_exp".toList ++ exp ++ "_scan".toList ++ decStr (n + 1) ++ ".dat".toList ∧
      ∀ m, r ≠ Spec.spiceName instr exp m := by
  rw [getNextFile, if_pos (by simp [Spec.spiceName]), nextName_spice n h1 h2 h3] at h
  obtain ⟨i, _, rfl⟩ := map_eq_ok.1 h
  refine ⟨rfl, fun m hm => ?_⟩
  rw [Spec.spiceName] at hm
  have e := List.append_cancel_right hm
  have e := List.append_cancel_left e
  have hv : n + 1 = m := by rw [← (decStr_spec (n + 1)).1, e, (pad4_spec m).1]
  subst hv
  have := pad4_eq_decStr.1 e.symm
  omega

/-- **C57**: nothing is suggested for a file that is not in the project. -/
theorem C57_unknown (p : Project) (prev : Option Str) (cur : Str) (h : cur ∉ p.fileList) (r : Str) :
    getNextFile p prev cur ≠ .ok r := by
  intro hr
  rw [getNextFile] at hr
  obtain ⟨a, _, hr⟩ := py_bind_eq_ok.1 hr
  rw [indexOf, if_neg h] at hr
  exact absurd hr (by simp [Except.map])

/-! ## Concrete cases -/

namespace Demo

def listing : List Str := ["HB3_exp0001_scan0002.dat".toList, "HB3_exp0001_scan1234.dat".toList, "a".toList]

example : (Project.new.load listing listing.reverse).2 = listing := by decide +kernel
example : Spec.spiceName "HB3".toList "0001".toList 1234 = "HB3_exp0001_scan1234.dat".toList := by decide +kernel
example : getNextFile (Project.new.load listing listing).1 none "HB3_exp0001_scan1234.dat".toList =
    .ok "HB3_exp0001_scan1235.dat".toList := by decide +kernel
example : getNextFile (Project.new.load listing listing).1 none "HB3_exp0001_scan0002.dat".toList =
    .ok "HB3_exp0001_scan3.dat".toList := by decide +kernel

end Demo

end Tavi
