import Verif.Props.Ini
import Verif.Props.Header

/-! # C103 for files with comments

`#` and `;` begin a comment for `get_data`, and a field (or the name of one) for the reader that is used at the start. If the
start succeeds, and no line is indented or begins with `/`, the settings are kept all the same. The comments are written back as
if they were fields: in lower case up to the first `=` or `:`, which becomes ` = `. -/

namespace Tavi

open Spec

/-- The line is a comment for `get_data`. -/
def Spec.Remark (line : Str) : Prop := (strip line).head? = some '#' ∨ (strip line).head? = some ';'

/-- No line that is not blank begins with a blank or with `/`. -/
def Spec.Flat (text : Str) : Prop :=
  ∀ line ∈ splitChar '\n' text, ¬ Blank line → ∀ c, line.head? = some c → isSpace c = false ∧ c ≠ '/'

/-- The name of a field that is a comment for the other reader. -/
def isRemark (k : Str) : Bool := k.head? == some '#' || k.head? == some ';'

/-- A section without the comments. -/
def bareSec (s : Section) : Section := s.filter fun e => !isRemark e.1

/-- A configuration without the comments. -/
def bare (c : Config) : Config := ⟨bareSec c.defaults, c.sections.map fun s => (s.1, bareSec s.2)⟩

/-- The dictionary of a section. -/
def csec (c : Config) (n : Str) : Section := if n = defaultSect then c.defaults else (lookupKey n c.sections).getD []

/-- Replace the dictionary of a section. -/
def cset (c : Config) (n : Str) (s : Section) : Config :=
  if n = defaultSect then { c with defaults := s } else { c with sections := assocSet c.sections n s }

/-- The section is there. -/
def CHas (c : Config) (n : Str) : Prop := n = defaultSect ∨ (lookupKey n c.sections).isSome = true

/-- What the reader has read so far. -/
def view (st : IniState) : Config := ⟨joinSec st.defaults, st.sections.map fun s => (s.1, joinSec s.2)⟩

theorem ini_map_assocSet {β γ : Type} (f : β → γ) (l : List (Str × β)) (k : Str) (v : β) :
    (assocSet l k v).map (fun e => (e.1, f e.2)) = assocSet (l.map fun e => (e.1, f e.2)) k (f v) := by
  induction l with
  | nil => rfl
  | cons e l ih =>
    obtain ⟨k', v'⟩ := e
    rw [assocSet, List.map_cons, assocSet]
    by_cases h : k' = k
    · rw [if_pos h, if_pos h]; rfl
    · rw [if_neg h, if_neg h, List.map_cons, ih]

theorem view_setSec (st : IniState) (n : Str) (r : RawSec) : view (st.setSec n r) = cset (view st) n (joinSec r) := by
  unfold IniState.setSec cset
  split
  · rfl
  · unfold view
    dsimp only
    rw [ini_map_assocSet]

theorem view_sec (st : IniState) (n : Str) : csec (view st) n = joinSec (st.sec n) := by
  unfold csec IniState.sec view
  split
  · rfl
  · dsimp only
    rw [lookupKey_map joinSec]
    cases lookupKey n st.sections <;> rfl

theorem bare_cset (c : Config) (n : Str) (s : Section) : bare (cset c n s) = cset (bare c) n (bareSec s) := by
  unfold cset
  split
  · rfl
  · unfold bare
    dsimp only
    rw [ini_map_assocSet]

theorem bare_csec (c : Config) (n : Str) : csec (bare c) n = bareSec (csec c n) := by
  unfold csec
  split
  · rfl
  · unfold bare
    dsimp only
    rw [lookupKey_map bareSec]
    cases lookupKey n c.sections <;> rfl

theorem bare_has (c : Config) (n : Str) : CHas (bare c) n ↔ CHas c n := by
  unfold CHas bare
  dsimp only
  rw [lookupKey_map bareSec]
  cases lookupKey n c.sections <;> simp

theorem view_has (st : IniState) (n : Str) : CHas (view st) n ↔ HasSec st n := by
  unfold CHas HasSec view
  dsimp only
  rw [lookupKey_map joinSec]
  cases lookupKey n st.sections <;> simp

theorem cset_self {c : Config} {n : Str} (h : CHas c n) : cset c n (csec c n) = c := by
  unfold cset csec
  split
  · rfl
  · rename_i hd
    obtain ⟨r, hr⟩ := Option.isSome_iff_exists.1 (h.resolve_left hd)
    rw [hr, Option.getD_some, assocSet_same hr]

theorem cset_has {c : Config} {n m : Str} {s : Section} (h : CHas c n) : CHas (cset c m s) n := by
  unfold CHas cset at *
  rcases h with h | h
  · exact .inl h
  · right
    split
    · exact h
    · dsimp only
      rw [lookupKey_assocSet]
      split
      · rfl
      · exact h

theorem bareSec_append (a b : Section) : bareSec (a ++ b) = bareSec a ++ bareSec b := List.filter_append ..

theorem bareSec_remark {k : Str} (h : isRemark k = true) (x : Option Str) : bareSec [(k, x)] = [] := by
  unfold bareSec
  rw [List.filter_cons_of_neg (by simp [h])]; rfl

theorem bareSec_field {k : Str} (h : isRemark k = false) (x : Option Str) : bareSec [(k, x)] = [(k, x)] := by
  unfold bareSec
  rw [List.filter_cons_of_pos (by simp [h])]; rfl

theorem bareSec_lookup {k : Str} (h : isRemark k = false) (s : Section) : lookupKey k (bareSec s) = lookupKey k s := by
  induction s with
  | nil => rfl
  | cons e s ih =>
    obtain ⟨k', v⟩ := e
    show lookupKey k (List.filter _ _) = _
    rw [lookupKey]
    by_cases hr : isRemark k' = true
    · rw [List.filter_cons_of_neg (by simp [hr])]
      have : k' ≠ k := by rintro rfl; rw [h] at hr; exact absurd hr (by simp)
      rw [if_neg this]
      exact ih
    · rw [List.filter_cons_of_pos (by simp [hr]), lookupKey]
      by_cases hk : k' = k
      · rw [if_pos hk, if_pos hk]
      · rw [if_neg hk, if_neg hk]; exact ih

theorem csec_cset (c : Config) (m n : Str) (s : Section) : csec (cset c m s) n = if n = m then s else csec c n := by
  unfold csec cset
  by_cases hm : m = defaultSect
  · rw [if_pos hm]
    by_cases hn : n = defaultSect
    · rw [if_pos hn, if_pos (hn.trans hm.symm)]
    · rw [if_neg hn, if_neg (by rw [hm]; exact hn), if_neg hn]
  · rw [if_neg hm]
    by_cases hn : n = defaultSect
    · rw [if_pos hn, if_neg (by rw [hn]; exact Ne.symm hm), if_pos hn]
    · rw [if_neg hn, if_neg hn]
      dsimp only
      rw [lookupKey_assocSet]
      split <;> rfl

/-- The name is not in use. -/
def Unused (c : Config) (k : Str) : Prop := ∀ n, lookupKey k (csec c n) = none

theorem lookupKey_other {β : Type} {k n : Str} {l : List (Str × β)} (v : β) (h : k ≠ n) :
    lookupKey k (l ++ [(n, v)]) = lookupKey k l := by
  induction l with
  | nil => show (if n = k then some v else none) = none; rw [if_neg (Ne.symm h)]
  | cons e l ih =>
    obtain ⟨k', v'⟩ := e
    rw [List.cons_append, lookupKey, lookupKey, ih]

/-! ## The readers line by line -/

theorem blank_strip {l : Str} (h : strip l = []) : Blank l := by
  obtain ⟨a, b, hab, ha, hb, -⟩ := trim_strip l
  rw [h, List.append_nil] at hab
  rw [hab]
  intro c hc
  rcases List.mem_append.1 hc with hc | hc
  · exact ha c hc
  · exact hb c hc

/-- A blank line changes nothing that is kept. -/
theorem step_blank {m : IniMode} {st : IniState} {line : Str} (h : strip line = []) :
    ∃ st', iniStep m st line = .ok st' ∧ view st' = view st ∧ st'.cur = st.cur ∧ st'.indent = st.indent ∧ st'.bad = st.bad := by
  unfold iniStep
  rw [h]
  dsimp only
  cases ht : st.target with
  | none => exact ⟨st, rfl, rfl, rfl, rfl, rfl⟩
  | some x =>
    obtain ⟨s, o, x⟩ := x
    cases x with
    | none => exact ⟨st, rfl, rfl, rfl, rfl, rfl⟩
    | some ls =>
      refine ⟨_, rfl, ?_, setSec_cur _ _ _, setSec_indent _ _ _, setSec_bad _ _ _⟩
      have hl := join_some (target_inv ht).2.2.2.symm
      unfold IniState.append
      rw [view_setSec, joinSec_set, assocSet_same, ← view_sec, cset_self]
      · rw [view_has]
        unfold HasSec
        by_contra hno
        rw [not_or] at hno
        unfold IniState.sec at hl
        rw [if_neg hno.1] at hl
        cases hk : lookupKey s st.sections with
        | none => rw [hk] at hl; exact absurd hl (by simp [lookupKey])
        | some r => rw [hk] at hno; exact hno.2 rfl
      · rw [joinSec_lookup, hl]
        show some (some (joinVal ls)) = some (some (joinVal (ls ++ [[]])))
        rw [joinVal_blank]

theorem step_remark {st : IniState} {line : Str} (h : Remark line) : iniStep dataMode st line = .ok st := by
  unfold iniStep
  cases hs : strip line with
  | nil => unfold Remark at h; rw [hs] at h; exact absurd h (by simp)
  | cons c v =>
    unfold Remark at h
    rw [hs] at h
    dsimp only
    rw [if_pos]
    rcases h with h | h
    · rw [Option.some.inj h]; decide
    · rw [Option.some.inj h]; decide

/-- The name a comment gets from the other reader begins as the comment does. -/
theorem remark_key {v : Str} (h : v.head? = some '#' ∨ v.head? = some ';') : isRemark (iniOption v).1 = true := by
  cases v with
  | nil => exact absurd h (by simp)
  | cons c v =>
    have hc : c = '#' ∨ c = ';' := by simpa using h
    have hd : (!isDelim c) = true := by rcases hc with rfl | rfl <;> decide
    have hsp : isSpace c = false := by rcases hc with rfl | rfl <;> decide
    have hlow : c.toLower = c := by rcases hc with rfl | rfl <;> decide
    unfold iniOption
    dsimp only
    rw [List.takeWhile_cons, if_pos hd]
    generalize v.takeWhile (fun c => !isDelim c) = w
    obtain ⟨b, hb, hbl, -⟩ := rstrip_split (c :: w)
    cases hr : rstrip (c :: w) with
    | nil =>
      rw [hr, List.nil_append] at hb
      have := hbl c (by rw [← hb]; simp)
      rw [hsp] at this
      exact absurd this (by simp)
    | cons d r =>
      rw [hr, List.cons_append] at hb
      rw [← (List.cons.inj hb).1]
      show isRemark (c.toLower :: _) = true
      rw [hlow]
      rcases hc with rfl | rfl <;> rfl

/-- Name and value are on one line. -/
def OneLine (e : Str × Option Str) : Prop := '\n' ∉ e.1 ∧ ∀ v, e.2 = some v → '\n' ∉ v

/-- All fields are on one line. -/
def Lines (c : Config) : Prop := (∀ e ∈ c.defaults, OneLine e) ∧ ∀ s ∈ c.sections, ∀ e ∈ s.2, OneLine e

theorem lines_csec {c : Config} (h : Lines c) (n : Str) : ∀ e ∈ csec c n, OneLine e := by
  unfold csec
  split
  · exact h.1
  · cases hl : lookupKey n c.sections with
    | none => simp
    | some r =>
      have : (n, r) ∈ c.sections := by
        generalize c.sections = l at hl
        induction l with
        | nil => exact absurd hl (by simp [lookupKey])
        | cons e l ih =>
          obtain ⟨k', v⟩ := e
          rw [lookupKey] at hl
          split at hl
          · rename_i hk
            cases hl; subst hk; simp
          · exact List.mem_cons_of_mem _ (ih hl)
      exact h.2 _ this

theorem lines_cset {c : Config} (h : Lines c) (n : Str) {s : Section} (hs : ∀ e ∈ s, OneLine e) : Lines (cset c n s) := by
  unfold cset
  split
  · exact ⟨hs, h.2⟩
  · refine ⟨h.1, fun x hx => ?_⟩
    rcases ini_mem_assocSet hx with rfl | hx
    · exact hs
    · exact h.2 x hx

/-- The state of the reader that skips comments, and that of the reader that takes them for fields. -/
structure Sim (d s : IniState) : Prop where
  eq : view d = bare (view s)
  cur : d.cur = s.cur
  di : d.indent = 0
  si : s.indent = 0
  sb : s.bad = false
  has : ∀ n, s.cur = some n → CHas (view s) n
  lines : Lines (view s)

/-- A field is stored. -/
def stored (st : IniState) (n : Str) (kv : Str × Option Str) : IniState :=
  { (st.setSec n (st.sec n ++ [(kv.1, kv.2.map fun v => [v])])) with opt := some kv.1, bad := st.bad || decide (kv.1 = []) }

theorem view_stored (st : IniState) (n : Str) (kv : Str × Option Str) :
    view (stored st n kv) = cset (view st) n (csec (view st) n ++ [(kv.1, kv.2.map rstrip)]) := by
  show view (st.setSec n _) = _
  rw [view_setSec, joinSec_append, view_sec]
  obtain ⟨k, x⟩ := kv
  cases x <;> rfl

theorem stored_cur (st : IniState) (n : Str) (kv : Str × Option Str) : (stored st n kv).cur = st.cur := setSec_cur _ _ _
theorem stored_indent (st : IniState) (n : Str) (kv : Str × Option Str) : (stored st n kv).indent = st.indent := setSec_indent _ _ _

/-- The first sign of a line that is not indented. -/
theorem flat_line {line : Str} (hb : ¬ Blank line) (hf : ∀ c, line.head? = some c → isSpace c = false ∧ c ≠ '/') :
    ∃ c v, strip line = c :: v ∧ c ≠ '/' ∧ indentOf line = 0 := by
  cases line with
  | nil => exact absurd (by intro c hc; simp at hc) hb
  | cons c x =>
    obtain ⟨h1, h2⟩ := hf c rfl
    obtain ⟨v, hv⟩ := strip_cons h1 x
    exact ⟨c, v, hv, h2, by rw [indentOf, List.takeWhile_cons_of_neg (by simp [h1])]; rfl⟩

theorem option_line {v : Str} (h : '\n' ∉ v) : OneLine ((iniOption v).1, (iniOption v).2.map rstrip) := by
  have hr : ∀ w : Str, (∀ c ∈ w, c ∈ v) → '\n' ∉ rstrip w := by
    intro w hw hc
    obtain ⟨b, hb, -⟩ := rstrip_split w
    exact h (hw _ (by rw [hb]; exact List.mem_append_left _ hc))
  refine ⟨?_, ?_⟩
  · show '\n' ∉ lowerStr _
    intro hc
    obtain ⟨c, hc, he⟩ := List.mem_map.1 hc
    rw [toLower_eq (by decide)] at he
    subst he
    exact hr _ (fun c hc => (List.takeWhile_sublist _).subset hc) hc
  · intro x hx
    unfold iniOption at hx
    dsimp only at hx
    cases hd : v.dropWhile fun c => !isDelim c with
    | nil => rw [hd] at hx; exact absurd hx (by simp)
    | cons a t =>
      rw [hd] at hx
      rw [← Option.some.inj hx]
      refine hr _ fun c hc => ?_
      refine (List.dropWhile_sublist fun c => !isDelim c).subset ?_
      rw [hd]
      exact List.mem_cons_of_mem _ (strip_mem hc)

theorem strip_nl {line : Str} (h : '\n' ∉ line) : '\n' ∉ strip line := fun hc => h (strip_mem hc)

/-- What the start makes of a comment. -/
theorem start_remark {d s : IniState} (hs : Sim d s) {line : Str} (hnl : '\n' ∉ line) (hb : ¬ Blank line)
    (hf : ∀ c, line.head? = some c → isSpace c = false ∧ c ≠ '/') (hr : Remark line) :
    (iniStep startMode s line = match s.cur with
      | none => .error .missingHeader
      | some n => if (lookupKey (iniOption (strip line)).1 (csec (view s) n)).isSome then .error .duplicateOption
        else .ok (stored s n (iniOption (strip line)))) ∧
    ∀ n, s.cur = some n → Sim d (stored s n (iniOption (strip line))) := by
  obtain ⟨c, v, hv, hc, hi⟩ := flat_line hb hf
  have hc' : c = '#' ∨ c = ';' := by
    unfold Remark at hr
    rw [hv] at hr
    simpa using hr
  have hkey := remark_key hr
  have hne : (iniOption (strip line)).1 ≠ [] := by
    intro h
    rw [h] at hkey
    exact absurd hkey (by decide)
  constructor
  · rw [step_new hs.si (by rw [hv]; simp) hi (by
      rw [hv]; intro a ha; rw [← Option.some.inj ha]; rcases hc' with rfl | rfl <;> decide)]
    unfold iniNew
    have hh : iniHeader (strip line) = none := by
      rw [hv]
      rcases hc' with rfl | rfl <;> rfl
    rw [hh]
    dsimp only
    cases hcur : s.cur with
    | none => rfl
    | some n =>
      dsimp only
      unfold iniEntry
      rw [if_neg (by rintro ⟨-, h⟩; exact absurd h (by decide)), view_sec, joinSec_lookup, Option.isSome_map]
      rfl
  · intro n hn
    have hv' := view_stored s n (iniOption (strip line))
    refine ⟨?_, ?_, hs.di, ?_, ?_, ?_, ?_⟩
    · rw [hv', bare_cset, bareSec_append, bareSec_remark hkey, List.append_nil, ← bare_csec, cset_self]
      · exact hs.eq
      · rw [bare_has]; exact hs.has n hn
    · rw [stored_cur]; exact hs.cur
    · rw [stored_indent]; exact hs.si
    · show (s.bad || _) = false
      rw [hs.sb, decide_eq_false hne]; rfl
    · intro n' hn'
      rw [stored_cur] at hn'
      rw [hv']
      exact cset_has (hs.has n' hn')
    · rw [hv']
      refine lines_cset hs.lines n ?_
      intro e he
      rcases List.mem_append.1 he with he | he
      · exact lines_csec hs.lines n e he
      · rw [List.mem_singleton.1 he]
        exact option_line (strip_nl hnl)

/-- A line that is a field or a section for one reader is the same for the other. -/
theorem start_field {d d' s : IniState} (hs : Sim d s) {line : Str} (hnl : '\n' ∉ line) (hb : ¬ Blank line)
    (hf : ∀ c, line.head? = some c → isSpace c = false ∧ c ≠ '/') (hr : ¬ Remark line)
    (h : iniStep dataMode d line = .ok d') (hbad : d'.bad = false) :
    ∃ s', iniStep startMode s line = .ok s' ∧ Sim d' s' ∧ s'.cur ≠ none ∧
      ∀ k, isRemark k = true → Unused (view s) k → Unused (view s') k := by
  obtain ⟨c, v, hv, hc, hi⟩ := flat_line hb hf
  have hc' : c ≠ '#' ∧ c ≠ ';' := by
    unfold Remark at hr
    rw [hv] at hr
    simpa using hr
  have hdc : c ∉ dataMode.comment := by simpa [dataMode] using hc'
  have hsc : c ∉ startMode.comment := by simpa [startMode] using hc
  rw [step_new hs.di (by rw [hv]; simp) hi (by rw [hv]; intro a ha; rw [← Option.some.inj ha]; exact hdc)] at h
  rw [step_new hs.si (by rw [hv]; simp) hi (by rw [hv]; intro a ha; rw [← Option.some.inj ha]; exact hsc)]
  unfold iniNew at h ⊢
  cases hh : iniHeader (strip line) with
  | some n =>
    rw [hh] at h
    dsimp only at h ⊢
    by_cases hn : n = defaultSect
    · rw [if_pos hn] at h ⊢
      cases h
      exact ⟨_, rfl, ⟨hs.eq, rfl, hs.di, hs.si, hs.sb, fun m hm => .inl (by rw [← Option.some.inj hm]; exact hn), hs.lines⟩, by simp,
        fun _ _ h => h⟩
    · rw [if_neg hn] at h ⊢
      have hsome : (lookupKey n d.sections).isSome = (lookupKey n s.sections).isSome := by
        have := congrArg (fun c => (lookupKey n c.sections).isSome) hs.eq
        unfold view bare at this
        dsimp only at this
        rw [lookupKey_map bareSec, lookupKey_map joinSec, lookupKey_map joinSec, Option.isSome_map, Option.isSome_map,
          Option.isSome_map] at this
        exact this
      split at h
      · exact absurd h (by simp)
      · rename_i hno
        rw [if_neg (by rw [← hsome]; exact hno)]
        cases h
        have hnone : lookupKey n s.sections = none := Option.not_isSome_iff_eq_none.1 (by rw [← hsome]; exact hno)
        refine ⟨_, rfl, ⟨?_, rfl, hs.di, hs.si, hs.sb, ?_, ?_⟩, by simp, ?_⟩
        · have h1 := congrArg Config.defaults hs.eq
          have h2 := congrArg Config.sections hs.eq
          unfold view bare at h1 h2 ⊢
          dsimp only at h1 h2 ⊢
          rw [List.map_append, List.map_append, List.map_append, h1, h2]
          rfl
        · intro m hm
          rw [← Option.some.inj hm]
          right
          unfold view
          dsimp only
          rw [lookupKey_map joinSec, lookupKey_snoc hnone]
          rfl
        · refine ⟨hs.lines.1, ?_⟩
          intro x hx
          unfold view at hx
          dsimp only at hx
          rw [List.map_append] at hx
          rcases List.mem_append.1 hx with hx | hx
          · exact hs.lines.2 x hx
          · rw [List.mem_singleton.1 hx]
            intro e he
            exact absurd he (by simp [joinSec])
        · intro k _ hk m
          have := hk m
          rw [view_sec, joinSec_lookup] at this ⊢
          unfold IniState.sec at this ⊢
          split
          · rename_i hm
            rw [if_pos hm] at this
            exact this
          · rename_i hm
            rw [if_neg hm] at this
            dsimp only
            by_cases hmn : m = n
            · subst hmn
              rw [lookupKey_snoc hnone]
              rfl
            · rw [lookupKey_other _ hmn]
              exact this
  | none =>
    rw [hh] at h
    dsimp only at h ⊢
    rw [hs.cur] at h
    cases hcur : s.cur with
    | none => rw [hcur] at h; exact absurd h (by simp)
    | some n =>
      rw [hcur] at h
      dsimp only at h ⊢
      unfold iniEntry at h ⊢
      have hval : (iniOption (strip line)).2 ≠ none := by
        intro h2
        rw [if_pos ⟨h2, rfl⟩] at h
        cases h
        exact absurd hbad (by simp)
      rw [if_neg fun hx => hval hx.1] at h ⊢
      split at h
      · exact absurd h (by simp)
      · rename_i hno
        have hd' : stored d n (iniOption (strip line)) = d' := Except.ok.inj h
        have hkne : (iniOption (strip line)).1 ≠ [] := by
          intro hk
          rw [← hd'] at hbad
          change (d.bad || decide _) = false at hbad
          rw [hk] at hbad
          simp at hbad
        have hok := option_ok (v := strip line) (nv := false) (ps := bothMode.comment) (trim_strip line).choose_spec.choose_spec.2.2.2
          (strip_nl hnl) hh (by
            rw [hv]; intro a ha; rw [← Option.some.inj ha]; simp [bothMode, hc, hc'.1, hc'.2]) (by decide) hkne
          (fun h2 => absurd h2 hval)
        have hrem : isRemark (iniOption (strip line)).1 = false := by
          have hhd := hok.1.2.2.2.2.2
          unfold isRemark
          cases hk : (iniOption (strip line)).1.head? with
          | none => rfl
          | some a =>
            have := hhd a hk
            have : a ≠ '#' ∧ a ≠ ';' := ⟨by rintro rfl; exact this (by decide), by rintro rfl; exact this (by decide)⟩
            simp [this.1, this.2]
        have hlook : lookupKey (iniOption (strip line)).1 (csec (view d) n) = lookupKey (iniOption (strip line)).1 (csec (view s) n) := by
          rw [hs.eq, bare_csec, bareSec_lookup hrem]
        rw [view_sec, view_sec, joinSec_lookup, joinSec_lookup] at hlook
        have hlook' := congrArg Option.isSome hlook
        rw [Option.isSome_map, Option.isSome_map] at hlook'
        rw [if_neg (by rw [← hlook']; exact hno)]
        refine ⟨stored s n (iniOption (strip line)), rfl, ?_, ?_, ?_⟩
        · have e1 := view_stored d n (iniOption (strip line))
          have e2 := view_stored s n (iniOption (strip line))
          rw [← hd']
          refine ⟨?_, ?_, ?_, ?_, ?_, ?_, ?_⟩
          · rw [e1, e2, bare_cset, bareSec_append, bareSec_field hrem, ← bare_csec, hs.eq]
          · rw [stored_cur, stored_cur]; exact hs.cur
          · rw [stored_indent]; exact hs.di
          · rw [stored_indent]; exact hs.si
          · show (s.bad || _) = false
            rw [hs.sb, decide_eq_false hkne]; rfl
          · intro n' hn'
            rw [stored_cur] at hn'
            rw [e2]
            exact cset_has (hs.has n' hn')
          · rw [e2]
            refine lines_cset hs.lines n ?_
            intro e he
            rcases List.mem_append.1 he with he | he
            · exact lines_csec hs.lines n e he
            · rw [List.mem_singleton.1 he]
              exact option_line (strip_nl hnl)
        · rw [stored_cur, hcur]; simp
        · intro k hk hu m
          rw [view_stored, csec_cset]
          split
          · rw [lookupKey_eq_none, List.map_append, List.mem_append]
            rintro (h | h)
            · exact (lookupKey_eq_none _ _).1 (hu n) h
            · have : k = (iniOption (strip line)).1 := by simpa using h
              rw [this, hrem] at hk
              exact absurd hk (by simp)
          · exact hu m

/-! ## The whole file -/

/-- The lines of the file are not indented and do not begin with `/`. -/
def FlatLine (line : Str) : Prop :=
  '\n' ∉ line ∧ (¬ Blank line → ∀ c, line.head? = some c → isSpace c = false ∧ c ≠ '/')

theorem flat_lines {text : Str} (h : Flat text) : ∀ l ∈ textLines text, FlatLine l :=
  fun l hl => ⟨textLines_nl text l hl, h l (textLines_mem hl)⟩

theorem strip_of_blank {l : Str} (h : Blank l) : strip l = [] := by
  have := strip_append h []
  rw [List.append_nil] at this
  rw [this]; rfl

theorem fold_sim (L : List Str) (hL : ∀ l ∈ L, FlatLine l) {d d' s s' : IniState} (hs : Sim d s)
    (hd : L.foldlM (iniStep dataMode) d = .ok d') (hbad : d'.bad = false) (hst : L.foldlM (iniStep startMode) s = .ok s') :
    Sim d' s' := by
  induction L generalizing d s with
  | nil => cases hd; cases hst; exact hs
  | cons l L ih =>
    have hL' := fun x hx => hL x (List.mem_cons_of_mem _ hx)
    obtain ⟨hnl, hfl⟩ := hL l List.mem_cons_self
    rw [List.foldlM_cons] at hd hst
    by_cases hb : Blank l
    · obtain ⟨d1, e1, e2, e3, e4, e5⟩ := step_blank (m := dataMode) (st := d) (strip_of_blank hb)
      obtain ⟨s1, f1, f2, f3, f4, f5⟩ := step_blank (m := startMode) (st := s) (strip_of_blank hb)
      rw [e1] at hd
      rw [f1] at hst
      refine ih hL' ⟨?_, ?_, ?_, ?_, ?_, ?_, ?_⟩ hd hst
      · rw [e2, f2]; exact hs.eq
      · rw [e3, f3]; exact hs.cur
      · rw [e4]; exact hs.di
      · rw [f4]; exact hs.si
      · rw [f5]; exact hs.sb
      · rw [f3, f2]; exact hs.has
      · rw [f2]; exact hs.lines
    · by_cases hr : Remark l
      · rw [step_remark hr] at hd
        obtain ⟨h1, h2⟩ := start_remark hs hnl hb (hfl hb) hr
        rw [h1] at hst
        cases hcur : s.cur with
        | none => rw [hcur] at hst; exact absurd hst (by simp [bind, Except.bind])
        | some n =>
          rw [hcur] at hst
          dsimp only at hst
          split at hst
          · exact absurd hst (by simp [bind, Except.bind])
          · exact ih hL' (h2 n hcur) hd hst
      · cases h1 : iniStep dataMode d l with
        | error e => rw [h1] at hd; exact absurd hd (by simp [bind, Except.bind])
        | ok d1 =>
          rw [h1] at hd
          have hb1 := (fold_ok low_data L (fun x hx => (hL' x hx).1) hd hbad).1
          obtain ⟨s1, f1, f2, -, -⟩ := start_field hs hnl hb (hfl hb) hr h1 hb1
          rw [f1] at hst
          exact ih hL' f2 hd hst

theorem sim_start : Sim {} {} := ⟨rfl, rfl, rfl, rfl, rfl, by simp, by simp [view, joinSec], by simp [view]⟩

/-- What the start reads is what `get_data` reads, and the comments. -/
theorem read_bare {text : Str} (hf : Flat text) {c cs : Config} (h : iniRead dataMode text = .ok c)
    (hs : iniRead startMode text = .ok cs) : c = bare cs ∧ Lines cs ∧ ConfOk bothMode.comment false c := by
  have hboth : iniRead bothMode text = .ok c := by
    have : ∀ (L : List Str), (∀ l ∈ L, FlatLine l) → ∀ st : IniState,
        L.foldlM (iniStep bothMode) st = L.foldlM (iniStep dataMode) st := by
      intro L
      induction L with
      | nil => intros; rfl
      | cons l L ih =>
        intro hL st
        have hstep : iniStep bothMode st l = iniStep dataMode st l := by
          unfold iniStep
          cases hl : strip l with
          | nil => rfl
          | cons a v =>
            have hb : ¬ Blank l := by
              intro hb
              rw [strip_of_blank hb] at hl
              exact absurd hl (by simp)
            obtain ⟨a', v', h1, h2, -⟩ := flat_line hb ((hL l List.mem_cons_self).2 hb)
            rw [hl] at h1
            have ha : a ≠ '/' := by rw [(List.cons.inj h1).1]; exact h2
            have hmem : (a ∈ bothMode.comment) = (a ∈ dataMode.comment) := by
              simp [bothMode, dataMode, ha]
            dsimp only
            simp only [hmem]
            rfl
        rw [List.foldlM_cons, List.foldlM_cons, hstep]
        congr 1
        funext x
        exact ih (fun y hy => hL y (List.mem_cons_of_mem _ hy)) x
    unfold iniRead at h ⊢
    rw [this _ (flat_lines hf)]
    exact h
  refine ⟨?_, ?_, read_ok (m := bothMode) (by decide) hboth⟩ <;>
  · unfold iniRead at h hs
    cases hd : (textLines text).foldlM (iniStep dataMode) {} with
    | error e => rw [hd] at h; exact absurd h (by simp [bind, Except.bind])
    | ok d =>
      rw [hd] at h
      change (if d.bad = true then _ else _) = _ at h
      split at h
      · exact absurd h (by simp)
      · rename_i hb
        cases hs' : (textLines text).foldlM (iniStep startMode) {} with
        | error e => rw [hs'] at hs; exact absurd hs (by simp [bind, Except.bind])
        | ok s =>
          rw [hs'] at hs
          change (if s.bad = true then _ else _) = _ at hs
          have hsim := fold_sim _ (flat_lines hf) sim_start hd (by simpa using hb) hs'
          rw [hsim.sb, if_neg (by simp)] at hs
          have e1 : view d = c := Except.ok.inj h
          have e2 : view s = cs := Except.ok.inj hs
          first
          | (rw [← e1, ← e2]; exact hsim.eq)
          | (rw [← e2]; exact hsim.lines)

/-! ## What is written -/

theorem bareSec_set {k : Str} (h : isRemark k = false) (s : Section) (v : Option Str) :
    bareSec (assocSet s k v) = assocSet (bareSec s) k v := by
  induction s with
  | nil => exact bareSec_field h v
  | cons e s ih =>
    obtain ⟨k', v'⟩ := e
    rw [assocSet]
    by_cases hk : k' = k
    · rw [if_pos hk]
      subst hk
      show List.filter _ _ = assocSet (List.filter _ _) _ _
      rw [List.filter_cons_of_pos (by simp [h]), List.filter_cons_of_pos (by simp [h]), assocSet, if_pos rfl]
    · rw [if_neg hk]
      by_cases hr : isRemark k' = true
      · show List.filter _ _ = assocSet (List.filter _ _) _ _
        rw [List.filter_cons_of_neg (by simp [hr]), List.filter_cons_of_neg (by simp [hr])]
        exact ih
      · show List.filter _ _ = assocSet (List.filter _ _) _ _
        rw [List.filter_cons_of_pos (by simp [hr]), List.filter_cons_of_pos (by simp [hr]), assocSet, if_neg hk]
        exact congrArg _ ih

theorem bare_addFields (c : Config) (items : Section) (hi : ∀ e ∈ items, isRemark e.1 = false) (s : Section) :
    bareSec (addFields c s items) = addFields (bare c) (bareSec s) items := by
  induction items generalizing s with
  | nil => rfl
  | cons e items ih =>
    obtain ⟨k, v⟩ := e
    have hk := hi (k, v) List.mem_cons_self
    have hi' := fun e he => hi e (List.mem_cons_of_mem _ he)
    rw [addFields, addFields]
    have : ((bare c).get (bareSec s) k) = c.get s k := by
      rw [config_get_eq, config_get_eq, bareSec_lookup hk]
      show _ = ((lookupKey k s).or (lookupKey k c.defaults))
      rw [← bareSec_lookup hk c.defaults]
      rfl
    rw [this]
    split
    · exact ih hi' s
    · rw [ih hi', bareSec_set hk]

/-- No field of the template is a comment. -/
def NoRemarks (t : Config) : Prop := (∀ e ∈ t.defaults, isRemark e.1 = false) ∧ ∀ s ∈ t.sections, ∀ e ∈ s.2, isRemark e.1 = false

theorem items_noRemarks {t : Config} (h : NoRemarks t) {s : Str × Section} (hs : s ∈ t.sections) :
    ∀ e ∈ t.items s.2, isRemark e.1 = false := by
  intro e he
  rcases ini_mem_assocUpdate _ _ he with he | he
  · exact h.1 e he
  · exact h.2 s hs e he

theorem bare_validate (c : Config) {t : Config} (h : NoRemarks t) : bare (c.validate t) = (bare c).validate t := by
  have key : ∀ ss : List (Str × Section), (∀ s ∈ ss, s ∈ t.sections) → ∀ c : Config,
      bare (ss.foldl (fun c s => addSection c s.1 (t.items s.2)) c) =
        ss.foldl (fun c s => addSection c s.1 (t.items s.2)) (bare c) := by
    intro ss
    induction ss with
    | nil => intros; rfl
    | cons s ss ih =>
      intro hss c
      rw [List.foldl_cons, List.foldl_cons, ih fun x hx => hss x (List.mem_cons_of_mem _ hx)]
      congr 1
      unfold addSection
      show bare { c with sections := _ } = _
      unfold bare
      dsimp only
      rw [ini_map_assocSet, lookupKey_map bareSec, bare_addFields c _ (items_noRemarks h (hss s List.mem_cons_self))]
      congr 2
      cases lookupKey s.1 c.sections <;> rfl
  exact key t.sections (fun _ h => h) c

/-- Comments stay on one line. -/
def RemLines (c : Config) : Prop :=
  (∀ e ∈ c.defaults, isRemark e.1 = true → OneLine e) ∧ ∀ s ∈ c.sections, ∀ e ∈ s.2, isRemark e.1 = true → OneLine e

theorem remLines_validate {c t : Config} (hc : RemLines c) (h : NoRemarks t) : RemLines (c.validate t) := by
  have hadd : ∀ (c : Config) (items : Section), (∀ e ∈ items, isRemark e.1 = false) → ∀ s : Section,
      (∀ e ∈ s, isRemark e.1 = true → OneLine e) → ∀ e ∈ addFields c s items, isRemark e.1 = true → OneLine e := by
    intro c items
    induction items with
    | nil => intro _ s hs; exact hs
    | cons e items ih =>
      obtain ⟨k, v⟩ := e
      intro hi s hs
      have hi' := fun e he => hi e (List.mem_cons_of_mem _ he)
      rw [addFields]
      split
      · exact ih hi' s hs
      · refine ih hi' _ fun e he hr => ?_
        rcases ini_mem_assocSet he with rfl | he
        · have := hi (k, v) List.mem_cons_self
          rw [this] at hr
          exact absurd hr (by simp)
        · exact hs e he hr
  have key : ∀ ss : List (Str × Section), (∀ s ∈ ss, s ∈ t.sections) → ∀ c : Config, RemLines c →
      RemLines (ss.foldl (fun c s => addSection c s.1 (t.items s.2)) c) := by
    intro ss
    induction ss with
    | nil => intro _ c h; exact h
    | cons s ss ih =>
      intro hss c hc
      rw [List.foldl_cons]
      refine ih (fun x hx => hss x (List.mem_cons_of_mem _ hx)) _ ⟨hc.1, fun x hx => ?_⟩
      rcases ini_mem_assocSet hx with rfl | hx
      · refine hadd c _ (items_noRemarks h (hss s List.mem_cons_self)) _ ?_
        cases hl : lookupKey s.1 c.sections with
        | none => simp
        | some r =>
          refine hc.2 (s.1, r) ?_
          generalize c.sections = l at hl
          induction l with
          | nil => exact absurd hl (by simp [lookupKey])
          | cons e l ih =>
            obtain ⟨k', v⟩ := e
            rw [lookupKey] at hl
            split at hl
            · rename_i hk
              cases hl; subst hk; simp
            · exact List.mem_cons_of_mem _ (ih hl)
      · exact hc.2 x hx
  exact key t.sections (fun _ h => h) c hc

theorem reads_remark {st : IniState} {e : Str × Option Str} (h : isRemark e.1 = true) (ho : OneLine e) :
    Reads dataMode st (iniWriteEntry e) st := by
  obtain ⟨k, x⟩ := e
  cases k with
  | nil => exact absurd h (by simp [isRemark])
  | cons c k =>
    have hc : c = '#' ∨ c = ';' := by simpa [isRemark] using h
    have hsp : isSpace c = false := by rcases hc with rfl | rfl <;> decide
    have key : ∀ w : Str, '\n' ∉ c :: w → Reads dataMode st ((c :: w) ++ ['\n']) st := by
      intro w hw
      obtain ⟨v, hv⟩ := strip_cons hsp w
      refine Reads.one hw (step_remark ?_)
      unfold Remark
      rw [hv]
      rcases hc with rfl | rfl
      · exact .inl rfl
      · exact .inr rfl
    unfold iniWriteEntry
    dsimp only
    cases x with
    | none =>
      have := key k ho.1
      dsimp only
      rw [List.append_nil]
      exact this
    | some v =>
      dsimp only
      rw [indentNl_line (ho.2 v rfl)]
      refine key (k ++ (" = ".toList ++ v)) ?_
      intro hm
      have hsp : '\n' ∉ " = ".toList := by decide
      rw [← List.cons_append] at hm
      rcases List.mem_append.1 hm with hm | hm
      · exact ho.1 hm
      · rcases List.mem_append.1 hm with hm | hm
        · exact hsp hm
        · exact ho.2 v rfl hm

/-- Reading the options of a section, the comments among them, and the blank line behind them. -/
theorem reads_entries_bare {n : Str} (es : Section) (hes : ∀ e ∈ bareSec es, OptOk bothMode.comment false e)
    (hrem : ∀ e ∈ es, isRemark e.1 = true → OneLine e) (hnd : ((bareSec es).map Prod.fst).Nodup)
    {st : IniState} (h0 : st.indent = 0) (hn : st.cur = some n) (hh : HasSec st n)
    (hdis : ∀ e ∈ bareSec es, lookupKey e.1 (st.sec n) = none) :
    ∃ raw o, Reads dataMode st (es.flatMap iniWriteEntry ++ ['\n']) { st.setSec n raw with opt := o } ∧
      joinSec raw = joinSec (st.sec n) ++ bareSec es := by
  induction es generalizing st with
  | nil =>
    obtain ⟨raw, h1, h2⟩ := reads_blank (m := dataMode) hn hh
    refine ⟨raw, st.opt, ?_, by rw [h2]; simp [bareSec]⟩
    have := setSec_opt st n raw
    rw [← this]
    exact h1
  | cons e es ih =>
    have hrem' := fun x hx => hrem x (List.mem_cons_of_mem _ hx)
    by_cases hr : isRemark e.1 = true
    · have hb : bareSec (e :: es) = bareSec es := List.filter_cons_of_neg (by simp [hr])
      rw [hb] at hes hnd hdis ⊢
      obtain ⟨raw, o, h3, h4⟩ := ih hes hrem' hnd h0 hn hh hdis
      refine ⟨raw, o, ?_, h4⟩
      rw [List.flatMap_cons, List.append_assoc]
      exact (reads_remark hr (hrem e List.mem_cons_self hr)).trans h3
    · have hb : bareSec (e :: es) = e :: bareSec es := List.filter_cons_of_pos (by simp [hr])
      rw [hb] at hes hnd hdis ⊢
      rw [List.map_cons, List.nodup_cons] at hnd
      obtain ⟨x, h1, h2, -⟩ := reads_entry (m := dataMode) (ps := bothMode.comment) (nv := false) (by decide) (by simp) h0 hn
        (hes e (by simp)) (hdis e (by simp))
      have hsec : (optState st n e.1 x).sec n = st.sec n ++ [(e.1, x)] := sec_setSec st n _
      obtain ⟨raw, o, h3, h4⟩ := ih (fun x hx => hes x (by simp [hx])) hrem' hnd.2 (st := optState st n e.1 x)
        (by unfold optState; dsimp only; rw [setSec_indent, h0])
        (by unfold optState; dsimp only; rw [setSec_cur, hn])
        (setSec_has _)
        (by
          intro e' he'
          rw [hsec, lookupKey_eq_none, List.map_append, List.mem_append]
          rintro (h | h)
          · exact (lookupKey_eq_none _ _).1 (hdis e' (by simp [he'])) h
          · have : e'.1 = e.1 := by simpa using h
            exact hnd.1 (List.mem_map.2 ⟨e', he', this⟩))
      refine ⟨raw, o, ?_, ?_⟩
      · have := h1.trans h3
        rw [List.flatMap_cons, List.append_assoc]
        rw [show ({ (optState st n e.1 x).setSec n raw with opt := o } : IniState) = { st.setSec n raw with opt := o } by
          unfold optState; rw [setSec_twice]] at this
        exact this
      · rw [h4, hsec, joinSec_append, List.append_assoc]
        show _ ++ ([(e.1, x.map joinVal)] ++ bareSec es) = _
        rw [h2]; rfl

theorem reads_sections_bare (ss : List (Str × Section))
    (hss : ∀ s ∈ ss, NameOk s.1 ∧ SecOk bothMode.comment false (bareSec s.2))
    (hrem : ∀ s ∈ ss, ∀ e ∈ s.2, isRemark e.1 = true → OneLine e)
    (hnd : (ss.map Prod.fst).Nodup) {st : IniState} (h0 : st.indent = 0) (hbad : st.bad = false)
    (hdis : ∀ s ∈ ss, lookupKey s.1 st.sections = none) :
    ∃ st', Reads dataMode st (ss.flatMap fun s => iniWriteSection s.1 s.2) st' ∧ st'.bad = false ∧ st'.defaults = st.defaults ∧
      (st'.sections.map fun s => (s.1, joinSec s.2)) =
        (st.sections.map fun s => (s.1, joinSec s.2)) ++ ss.map fun s => (s.1, bareSec s.2) := by
  induction ss generalizing st with
  | nil => exact ⟨st, Reads.nil _ _, hbad, rfl, by simp⟩
  | cons s ss ih =>
    obtain ⟨n, es⟩ := s
    rw [List.map_cons, List.nodup_cons] at hnd
    obtain ⟨hname, hsec⟩ := hss _ List.mem_cons_self
    have hnone : lookupKey n st.sections = none := hdis (n, es) List.mem_cons_self
    have h1 := step_header (m := dataMode) (by decide) h0 hname.1
    rw [if_neg hname.2.1, hnone, if_neg (by simp)] at h1
    have hlook : lookupKey n (st.sections ++ [(n, ([] : RawSec))]) = some [] := lookupKey_snoc hnone _
    have hsec1 : ({ st with sections := st.sections ++ [(n, [])], cur := some n, opt := none } : IniState).sec n = [] := by
      unfold IniState.sec
      rw [if_neg hname.2.1]
      dsimp only
      rw [hlook]; rfl
    obtain ⟨raw, o, h2, h3⟩ := reads_entries_bare es hsec.2 (hrem (n, es) List.mem_cons_self) hsec.1
      (st := { st with sections := st.sections ++ [(n, [])], cur := some n, opt := none }) h0 rfl
      (.inr (by dsimp only; rw [hlook]; rfl)) (by intro e _; rw [hsec1]; rfl)
    rw [hsec1] at h3
    have hfin : ({ ({ st with sections := st.sections ++ [(n, [])], cur := some n, opt := none } : IniState).setSec n raw with
        opt := o } : IniState) = { st with sections := st.sections ++ [(n, raw)], cur := some n, opt := o } := by
      unfold IniState.setSec
      rw [if_neg hname.2.1]
      dsimp only
      rw [assocSet_snoc hnone]
    rw [hfin] at h2
    obtain ⟨st', h4, h5, h6, h7⟩ := ih (fun x hx => hss x (List.mem_cons_of_mem _ hx))
      (fun x hx => hrem x (List.mem_cons_of_mem _ hx)) hnd.2
      (st := { st with sections := st.sections ++ [(n, raw)], cur := some n, opt := o }) h0 hbad (by
        intro s hs
        rw [lookupKey_eq_none]
        dsimp only
        rw [List.map_append, List.mem_append]
        rintro (h | h)
        · exact (lookupKey_eq_none _ _).1 (hdis s (List.mem_cons_of_mem _ hs)) h
        · have : s.1 = n := by simpa using h
          exact hnd.1 (List.mem_map.2 ⟨s, hs, this⟩))
    refine ⟨st', ?_, h5, h6, ?_⟩
    · rw [List.flatMap_cons]
      refine Reads.trans ?_ h4
      have hnl : '\n' ∉ '[' :: n ++ [']'] := by
        intro h
        rcases List.mem_append.1 h with h | h
        · rcases List.mem_cons.1 h with h | h
          · exact absurd h (by decide)
          · exact hname.2.2 h
        · exact absurd (List.mem_singleton.1 h) (by decide)
      have := (Reads.one hnl h1).trans h2
      unfold iniWriteSection
      dsimp only
      rw [List.append_assoc, show '[' :: n ++ [']', '\n'] = '[' :: n ++ [']'] ++ ['\n'] by simp]
      exact this
    · rw [h7]
      show (List.map _ (st.sections ++ [(n, raw)])) ++ _ = _
      rw [List.map_append, List.append_assoc]
      show _ ++ ([(n, joinSec raw)] ++ _) = _
      rw [h3]
      rfl

/-- `get_data` reads what is written without the comments. -/
theorem read_write_bare {c : Config} (h : ConfOk bothMode.comment false (bare c)) (hr : RemLines c) :
    iniRead dataMode (iniWrite c) = .ok (bare c) := by
  obtain ⟨defaults, sections⟩ := c
  have hend : ∀ {text : Str} {st : IniState}, Reads dataMode {} text st → st.bad = false → joinSec st.defaults = bareSec defaults →
      (st.sections.map fun s => (s.1, joinSec s.2)) = sections.map (fun s => (s.1, bareSec s.2)) →
      iniRead dataMode text = .ok (bare ⟨defaults, sections⟩) := by
    intro text st hr hbad hd hs
    obtain ⟨L, rfl, hL, hf⟩ := hr
    unfold iniRead
    rw [textLines_unlines hL, hf]
    show (if st.bad = true then _ else _) = _
    rw [hbad, if_neg (by simp), hd, hs]
    rfl
  have hss : ∀ s ∈ sections, NameOk s.1 ∧ SecOk bothMode.comment false (bareSec s.2) :=
    fun s hs => h.2.2 (s.1, bareSec s.2) (List.mem_map.2 ⟨s, hs, rfl⟩)
  have hnd : (sections.map Prod.fst).Nodup := by
    have := h.1
    unfold bare at this
    dsimp only at this
    rw [List.map_map] at this
    exact this
  unfold iniWrite
  dsimp only
  by_cases hd : defaults = []
  · rw [if_pos hd, List.nil_append]
    obtain ⟨st', h1, h2, h3, h4⟩ := reads_sections_bare sections hss hr.2 hnd (st := {}) rfl rfl (by intros; rfl)
    refine hend h1 h2 ?_ ?_
    · rw [h3, hd]; rfl
    · rw [h4]; rfl
  · rw [if_neg hd]
    have hne : defaultSect ≠ [] := by decide
    have h1 := step_header (m := dataMode) (by decide) (st := {}) rfl hne
    rw [if_pos rfl] at h1
    obtain ⟨raw, o, h2, h3⟩ := reads_entries_bare defaults h.2.1.2 hr.1 h.2.1.1 (n := defaultSect)
      (st := { cur := some defaultSect, opt := none }) rfl rfl (.inl rfl) (by intros; rfl)
    have hfin : ({ ({ cur := some defaultSect, opt := none } : IniState).setSec defaultSect raw with
        opt := o } : IniState) = { defaults := raw, cur := some defaultSect, opt := o } := rfl
    rw [hfin] at h2
    obtain ⟨st', h4, h5, h6, h7⟩ := reads_sections_bare sections hss hr.2 hnd
      (st := { defaults := raw, cur := some defaultSect, opt := o }) rfl rfl (by intros; rfl)
    have hnl : '\n' ∉ '[' :: defaultSect ++ [']'] := by decide
    have hr : Reads dataMode {} (iniWriteSection defaultSect defaults ++ sections.flatMap fun s => iniWriteSection s.1 s.2) st' := by
      refine Reads.trans ?_ h4
      have := (Reads.one hnl h1).trans h2
      unfold iniWriteSection
      rw [List.append_assoc, show '[' :: defaultSect ++ [']', '\n'] = '[' :: defaultSect ++ [']'] ++ ['\n'] by simp]
      exact this
    refine hend hr h5 ?_ ?_
    · rw [h6, h3]; rfl
    · rw [h7]; rfl

theorem noRemarks_of_ok {t : Config} (h : ConfOk bothMode.comment false t) : NoRemarks t := by
  have key : ∀ e, OptOk bothMode.comment false e → isRemark e.1 = false := by
    rintro e ⟨x, hx, -⟩
    have hhd := hx.1.2.2.2.2.2
    unfold isRemark
    cases hk : e.1.head? with
    | none => rfl
    | some a =>
      have := hhd a hk
      have : a ≠ '#' ∧ a ≠ ';' := ⟨by rintro rfl; exact this (by decide), by rintro rfl; exact this (by decide)⟩
      simp [this.1, this.2]
  exact ⟨fun e he => key e (h.2.1.2 e he), fun s hs e he => key e ((h.2.2 s hs).2.2 e he)⟩

/-- The file after the start. -/
theorem start_bare {text t text' : Str} (hf : Flat text) (hqt : NoComments t) {c tc : Config}
    (h : iniRead dataMode text = .ok c) (ht : iniRead dataMode t = .ok tc)
    (hs : startConfig (some t) (some text) = (some text', .ok true)) :
    iniRead dataMode text' = .ok (c.validate tc) := by
  obtain ⟨h3, h4⟩ := read_both hqt ht
  unfold startConfig at hs
  dsimp only [Option.getD_some] at hs
  cases hcs : iniRead startMode text with
  | error e => rw [hcs] at hs; exact absurd (Prod.mk.inj hs).2 (by simp)
  | ok cs =>
    rw [hcs, h4] at hs
    have hw : iniWrite (cs.validate tc) = text' := Option.some.inj (Prod.mk.inj hs).1
    obtain ⟨e1, e2, e3⟩ := read_bare hf h hcs
    have htidy := noRemarks_of_ok h3
    have hb : bare (cs.validate tc) = c.validate tc := by rw [bare_validate cs htidy, ← e1]
    rw [← hw, ← hb]
    refine read_write_bare ?_ (remLines_validate ⟨fun e he _ => e2.1 e he, fun s hs e he _ => e2.2 s hs e he⟩ htidy)
    rw [hb]
    exact ini_validate_ok e3 h3

/-- The name the start gives to a comment: what is before the first `=` or `:`, without blanks behind it, in lower case. -/
def Spec.remarkName (line : Str) : Str :=
  (((strip line).takeWhile fun c => !(c == '=' || c == ':')).reverse.dropWhile isSpace).reverse.map Char.toLower

/-- The first line that is not blank is not a comment. -/
def Spec.HeadFirst (lines : List Str) : Prop :=
  ∀ pre line post, lines = pre ++ line :: post → (∀ l ∈ pre, Blank l) → ¬ Remark line

instance (line : Str) : Decidable (Remark line) := by unfold Remark; infer_instance

theorem fold_starts (L : List Str) (hL : ∀ l ∈ L, FlatLine l) {d d' s : IniState} (hs : Sim d s)
    (hd : L.foldlM (iniStep dataMode) d = .ok d') (hbad : d'.bad = false)
    (hnd : ((L.filter fun l => decide (Remark l)).map remarkName).Nodup)
    (hun : ∀ l ∈ L, Remark l → Unused (view s) (remarkName l)) (hcur : s.cur ≠ none ∨ HeadFirst L) :
    ∃ s', L.foldlM (iniStep startMode) s = .ok s' := by
  induction L generalizing d s with
  | nil => exact ⟨s, rfl⟩
  | cons l L ih =>
    have hL' := fun x hx => hL x (List.mem_cons_of_mem _ hx)
    have hun' := fun x hx => hun x (List.mem_cons_of_mem _ hx)
    obtain ⟨hnl, hfl⟩ := hL l List.mem_cons_self
    have hnd' : ((L.filter fun l => decide (Remark l)).map remarkName).Nodup :=
      hnd.sublist (((List.sublist_cons_self l L).filter _).map _)
    rw [List.foldlM_cons] at hd ⊢
    by_cases hb : Blank l
    · obtain ⟨d1, e1, e2, e3, e4, e5⟩ := step_blank (m := dataMode) (st := d) (strip_of_blank hb)
      obtain ⟨s1, f1, f2, f3, f4, f5⟩ := step_blank (m := startMode) (st := s) (strip_of_blank hb)
      rw [e1] at hd
      rw [f1]
      refine ih hL' (s := s1) ⟨?_, ?_, ?_, ?_, ?_, ?_, ?_⟩ hd hnd' ?_ ?_
      · rw [e2, f2]; exact hs.eq
      · rw [e3, f3]; exact hs.cur
      · rw [e4]; exact hs.di
      · rw [f4]; exact hs.si
      · rw [f5]; exact hs.sb
      · rw [f3, f2]; exact hs.has
      · rw [f2]; exact hs.lines
      · rw [f2]; exact hun'
      · rw [f3]
        refine hcur.imp_right fun h pre line post he hp => h (l :: pre) line post (by rw [he]; rfl) ?_
        intro x hx
        rcases List.mem_cons.1 hx with rfl | hx
        · exact hb
        · exact hp x hx
    · by_cases hr : Remark l
      · rw [step_remark hr] at hd
        obtain ⟨h1, h2⟩ := start_remark hs hnl hb (hfl hb) hr
        have hc : s.cur ≠ none := hcur.resolve_right fun h => h [] l L rfl (by simp) hr
        obtain ⟨n, hn⟩ := Option.ne_none_iff_exists'.1 hc
        rw [h1, hn]
        dsimp only
        have hfree : lookupKey (iniOption (strip l)).1 (csec (view s) n) = none := hun l List.mem_cons_self hr n
        rw [hfree, if_neg (by simp)]
        refine ih hL' (h2 n hn) hd hnd' ?_ (.inl (by rw [stored_cur]; exact hc))
        intro x hx hxr m
        rw [view_stored, csec_cset]
        split
        · rw [lookupKey_eq_none, List.map_append, List.mem_append]
          rintro (h | h)
          · exact (lookupKey_eq_none _ _).1 (hun' x hx hxr n) h
          · have he : remarkName x = remarkName l := by
              rw [List.map_cons, List.map_nil, List.mem_singleton] at h
              exact h
            rw [List.filter_cons_of_pos (by simpa using hr), List.map_cons, List.nodup_cons] at hnd
            exact hnd.1 (List.mem_map.2 ⟨x, List.mem_filter.2 ⟨hx, by simpa using hxr⟩, he⟩)
        · exact hun' x hx hxr m
      · cases h1 : iniStep dataMode d l with
        | error e => rw [h1] at hd; exact absurd hd (by simp [bind, Except.bind])
        | ok d1 =>
          rw [h1] at hd
          have hb1 := (fold_ok low_data L (fun x hx => (hL' x hx).1) hd hbad).1
          obtain ⟨s1, f1, f2, f3, f4⟩ := start_field hs hnl hb (hfl hb) hr h1 hb1
          rw [f1]
          exact ih hL' f2 hd hnd' (fun x hx hxr => f4 _ (remark_key hxr) (hun' x hx hxr)) (.inl f3)

/-! ## The claims -/

/-- **C103**, for files with comments: if no line is indented or begins with `/` and the start succeeds, every setting the user's
file gives is still given after it, with the same value. (Comments with indented lines or lines that begin with `/`: see
`C103_indented` and `C103_slash`.) -/
theorem C103_comments_kept (text t text' : Str) (hf : Flat text) (hqt : NoComments t) {a b : Str} {w : ConfVal}
    (ht : getDataText (some t) a b = .ok w) (hs : startConfig (some t) (some text) = (some text', .ok true))
    (sec name : Str) (hname : name ≠ []) (v : ConfVal) (hv : v ≠ .none) (h : getDataText (some text) sec name = .ok v) :
    getDataText (some text') sec name = .ok v := by
  obtain ⟨c, hc⟩ := getData_reads h
  obtain ⟨tc, htc⟩ := getData_reads ht
  exact kept_of_read hc (conf_wellFormed (read_both hqt htc).1) (start_bare hf hqt hc htc hs) hname hv h

/-- **C103**, for files with comments: under the same conditions a setting that is in neither the section nor the defaults of the
user's file is, after the start, the one of the template. -/
theorem C103_comments_added (text t text' : Str) (hf : Flat text) (hqt : NoComments t) {c tc : Config}
    (hc : iniRead dataMode text = .ok c) (ht : iniRead dataMode t = .ok tc) (hp : NoPercent tc)
    (hs : startConfig (some t) (some text) = (some text', .ok true)) (sec name : Str)
    (hsec : sec ≠ "DEFAULT".toList) (hname : name ≠ []) (hno : field c sec (name.map Char.toLower) = none)
    (hdef : lookupKey (name.map Char.toLower) c.defaults = none) :
    getDataText (some text') sec name = getDataText (some t) sec name :=
  added_of_read ht (conf_wellFormed (read_both hqt ht).1) (start_bare hf hqt hc ht hs) hp hsec hname hno hdef

/-- **C103**, for files with comments: the start succeeds if no line is indented or begins with `/`, the file does not begin with a
comment, and the comments differ in what is before their first `=` or `:` (in any case). -/
theorem C103_comments_start (text t : Str) (hf : Flat text) (hqt : NoComments t) {a b a' b' : Str} {w w' : ConfVal}
    (ht : getDataText (some t) a b = .ok w) (h : getDataText (some text) a' b' = .ok w')
    (hhead : HeadFirst (splitChar '\n' text))
    (hnd : (((splitChar '\n' text).filter fun l => decide (Remark l)).map remarkName).Nodup) :
    ∃ text', startConfig (some t) (some text) = (some text', .ok true) := by
  obtain ⟨c, hc⟩ := getData_reads h
  obtain ⟨tc, htc⟩ := getData_reads ht
  have hsub : (textLines text) <+: (splitChar '\n' text) := by
    unfold textLines
    dsimp only
    split
    · exact List.dropLast_prefix _
    · exact List.prefix_rfl
  have hread : ∃ cs, iniRead startMode text = .ok cs := by
    unfold iniRead at hc ⊢
    cases hd : (textLines text).foldlM (iniStep dataMode) {} with
    | error e => rw [hd] at hc; exact absurd hc (by simp [bind, Except.bind])
    | ok d =>
      rw [hd] at hc
      change (if d.bad = true then _ else _) = _ at hc
      split at hc
      · exact absurd hc (by simp)
      · rename_i hb
        obtain ⟨s, hs⟩ := fold_starts _ (flat_lines hf) sim_start hd (by simpa using hb)
          (hnd.sublist ((hsub.sublist.filter _).map _)) (by intro l _ _ n; rw [view_sec]; unfold IniState.sec; split <;> rfl) (.inr (by
            intro pre line post he hp
            obtain ⟨rest, hr⟩ := hsub
            exact hhead pre line (post ++ rest) (by rw [← hr, he]; simp) hp))
        rw [hs]
        have hsim := fold_sim _ (flat_lines hf) sim_start hd (by simpa using hb) hs
        refine ⟨view s, ?_⟩
        show (if s.bad = true then _ else _) = _
        rw [hsim.sb, if_neg (by simp)]
        rfl
  obtain ⟨cs, hcs⟩ := hread
  refine ⟨iniWrite (cs.validate tc), ?_⟩
  unfold startConfig
  dsimp only [Option.getD_some]
  rw [hcs, (read_both hqt htc).2]

/-- **C103** (against it): a comment with an address does not stay what it was. -/
theorem C103_rewritten : startConfig (some shippedTemplate) (some "[global.other]\n# See HTTPS://host/A\nhelp_url = a\n".toList) =
    (some "[global.other]\n# see https = //host/A\nhelp_url = a\n\n".toList, .ok true) := by
  exact Prod.ext (by decide +kernel) (by decide +kernel)

end Tavi
