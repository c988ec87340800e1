import Verif.Lemmas.Ini

/-! # C103: starting the application keeps the settings of the user -/

namespace Tavi

open Spec

/-- No line of the text begins with `#`, `;` or `/` (after blanks): nothing that one of the two readers of the file takes for a
comment. -/
def Spec.NoComments (text : Str) : Prop :=
  ∀ line ∈ splitChar '\n' text, ∀ c, (strip line).head? = some c → c ≠ '#' ∧ c ≠ ';' ∧ c ≠ '/'

/-- No value has a `%`. -/
def Spec.NoPercent (c : Config) : Prop :=
  (∀ e ∈ c.defaults, ∀ v, e.2 = some v → '%' ∉ v) ∧ ∀ s ∈ c.sections, ∀ e ∈ s.2, ∀ v, e.2 = some v → '%' ∉ v

/-- The settings a user writes: sections with their fields. -/
abbrev Spec.Settings := List (Str × List (Str × Str))

/-- The file of the settings: `[section]`, a line `field = value` for each field, an empty line. -/
def Spec.settingsText (u : Settings) : Str :=
  u.flatMap fun s => "[".toList ++ s.1 ++ "]\n".toList ++ (s.2.flatMap fun e => e.1 ++ " = ".toList ++ e.2 ++ "\n".toList) ++ "\n".toList

/-- The name of a field: not empty, lower case, no blanks around it, neither `=` nor `:` in it, on one line, beginning neither with a
comment sign nor with a bracket. -/
def Spec.FieldName (k : Str) : Prop :=
  k ≠ [] ∧ Tight k ∧ k.map Char.toLower = k ∧ '=' ∉ k ∧ ':' ∉ k ∧ '\n' ∉ k ∧ ∀ c, k.head? = some c → c ∉ ['#', ';', '/', '[']

/-- The settings can be written to a file: names are there once, values are on one line, without blanks around them or `%`. -/
def Spec.Writable (u : Settings) : Prop :=
  (u.map Prod.fst).Nodup ∧ ∀ s ∈ u, s.1 ≠ [] ∧ s.1 ≠ "DEFAULT".toList ∧ '\n' ∉ s.1 ∧ (s.2.map Prod.fst).Nodup ∧
    ∀ e ∈ s.2, FieldName e.1 ∧ Tight e.2 ∧ '\n' ∉ e.2 ∧ '%' ∉ e.2

/-- What a value stands for: the words `True`, `False` and `None`, or itself. -/
def Spec.ValueMeans (v : Str) (r : ConfVal) : Prop :=
  (v = "True".toList ∧ r = .bool true) ∨ (v = "False".toList ∧ r = .bool false) ∨ (v = "None".toList ∧ r = .none) ∨
  (v ≠ "True".toList ∧ v ≠ "False".toList ∧ v ≠ "None".toList ∧ r = .str v)

/-! ## Validation keeps the form -/

theorem ini_mem_assocUpdate {β : Type} (d e : List (Str × β)) {x : Str × β} (h : x ∈ assocUpdate d e) : x ∈ d ∨ x ∈ e := by
  induction e generalizing d with
  | nil => exact .inl h
  | cons kv e ih =>
    rw [assocUpdate, List.foldl_cons] at h
    rcases ih _ h with h | h
    · rcases ini_mem_assocSet h with h | h
      · right; rw [h]; exact List.mem_cons_self
      · left; exact h
    · right; exact List.mem_cons_of_mem _ h

theorem addFields_ok {ps : List Char} {nv : Bool} (c : Config) (items : Section) (hi : ∀ e ∈ items, OptOk ps nv e)
    {sec : Section} (h : SecOk ps nv sec) : SecOk ps nv (addFields c sec items) := by
  induction items generalizing sec with
  | nil => exact h
  | cons e items ih =>
    obtain ⟨k, v⟩ := e
    rw [addFields]
    have hi' := fun e he => hi e (List.mem_cons_of_mem _ he)
    split
    · exact ih hi' h
    · refine ih hi' ⟨nodup_assocSet h.1 _ _, fun e he => ?_⟩
      rcases ini_mem_assocSet he with rfl | he
      · exact hi _ List.mem_cons_self
      · exact h.2 e he

theorem ini_validate_ok {ps : List Char} {nv : Bool} {c t : Config} (hc : ConfOk ps nv c) (ht : ConfOk ps nv t) :
    ConfOk ps nv (c.validate t) := by
  have key : ∀ ss : List (Str × Section), (∀ s ∈ ss, s ∈ t.sections) → ∀ c, ConfOk ps nv c →
      ConfOk ps nv (ss.foldl (fun c s => addSection c s.1 (t.items s.2)) c) := by
    intro ss
    induction ss with
    | nil => exact fun _ c h => h
    | cons s ss ih =>
      intro hss c h
      rw [List.foldl_cons]
      refine ih (fun x hx => hss x (List.mem_cons_of_mem _ hx)) _ ⟨nodup_assocSet h.1 _ _, h.2.1, fun x hx => ?_⟩
      obtain ⟨h1, h2⟩ := ht.2.2 s (hss s List.mem_cons_self)
      rcases ini_mem_assocSet hx with rfl | hx
      · refine ⟨h1, addFields_ok c _ ?_ ?_⟩
        · intro e he
          rcases ini_mem_assocUpdate _ _ he with he | he
          · exact ht.2.1.2 e he
          · exact h2.2 e he
        · cases hl : lookupKey s.1 c.sections with
          | none => exact ⟨List.nodup_nil, by simp⟩
          | some r => exact (h.2.2 (s.1, r) ((lookupKey_mem h.1).1 hl)).2
      · exact h.2.2 x hx
  exact key t.sections (fun _ h => h) c hc

theorem conf_wellFormed {ps : List Char} {nv : Bool} {c : Config} (h : ConfOk ps nv c) : WellFormed c :=
  ⟨h.1, h.2.1.1, fun s hs => (h.2.2 s hs).2.1⟩

/-- What the section has after validation: what it had, then what the template has. -/
theorem validate_own {c t : Config} (ht : WellFormed t) (s : Str) :
    (c.validate t).defaults = c.defaults ∧
    (∀ sec, c.own s = some sec → ∃ sec', (c.validate t).own s = some sec' ∧
      ∀ k v, c.get sec k = some v → (c.validate t).get sec' k = some v) := by
  obtain ⟨d, h⟩ := validate_sections c t t.sections ht.1 s
  change (c.validate t).defaults = _ at d
  change lookupKey s (c.validate t).sections = _ at h
  refine ⟨d, fun sec hsec => ?_⟩
  unfold Config.own at hsec ⊢
  split at hsec
  · rename_i hs
    cases hsec
    refine ⟨[], by rw [if_pos hs], fun k v hk => ?_⟩
    rw [config_get_eq] at hk ⊢
    rwa [d]
  · rename_i hs
    rw [if_neg hs]
    cases hl : lookupKey s t.sections with
    | none =>
      rw [hl] at h
      refine ⟨sec, h.trans hsec, fun k v hk => ?_⟩
      rw [config_get_eq] at hk ⊢
      rwa [d]
    | some ts =>
      rw [hl] at h
      dsimp only at h
      rw [hsec, Option.getD_some] at h
      refine ⟨_, h, fun k v hk => ?_⟩
      rw [config_get_eq, d, ← config_get_eq, addFields_get, hk]
      rfl

/-! ## The two readers agree on texts without comments -/

theorem entry_agree {m m' : IniMode} {st st' : IniState} {s : Str} {kv : Str × Option Str} (hnv : m.noValue = false)
    (h : iniEntry m st s kv = .ok st') (hbad : st'.bad = false) : iniEntry m' st s kv = .ok st' := by
  unfold iniEntry at h ⊢
  split at h
  · cases h; exact absurd hbad (by simp)
  · rename_i hn
    have hk : kv.2 ≠ none := fun hk => hn ⟨hk, hnv⟩
    rw [if_neg fun hc => hk hc.1]
    exact h

theorem new_agree {m m' : IniMode} {st st' : IniState} {v : Str} (hnv : m.noValue = false)
    (h : iniNew m st v = .ok st') (hbad : st'.bad = false) : iniNew m' st v = .ok st' := by
  unfold iniNew at h ⊢
  cases hh : iniHeader v with
  | some n => rw [hh] at h; exact h
  | none =>
    rw [hh] at h
    dsimp only at h ⊢
    cases hc : st.cur with
    | none => rw [hc] at h; exact h
    | some s => rw [hc] at h; exact entry_agree hnv h hbad

theorem step_agree {m m' : IniMode} {st st' : IniState} {line : Str} (hnv : m.noValue = false)
    (hc : ∀ c, (strip line).head? = some c → c ∉ m.comment ∧ c ∉ m'.comment)
    (h : iniStep m st line = .ok st') (hbad : st'.bad = false) : iniStep m' st line = .ok st' := by
  unfold iniStep at h ⊢
  cases hs : strip line with
  | nil => rw [hs] at h; exact h
  | cons c v =>
    rw [hs] at h hc
    obtain ⟨h1, h2⟩ := hc c rfl
    dsimp only at h ⊢
    rw [if_neg h1] at h
    rw [if_neg h2]
    split at h
    · rename_i hi
      rw [if_pos hi]
      cases ht : st.target with
      | none => rw [ht] at h; exact new_agree hnv h hbad
      | some x =>
        obtain ⟨s, o, x⟩ := x
        rw [ht] at h
        cases x <;> exact h
    · rename_i hi
      rw [if_neg hi]
      exact new_agree hnv h hbad

theorem low_data : ∀ c ∈ dataMode.comment, c.toNat < 65 := by decide
theorem low_start : ∀ c ∈ startMode.comment, c.toNat < 65 := by decide

theorem fold_agree {m m' : IniMode} (hpl : ∀ c ∈ m.comment, c.toNat < 65) (hnv : m.noValue = false) (L : List Str)
    (hnl : ∀ l ∈ L, '\n' ∉ l) (hc : ∀ l ∈ L, ∀ c, (strip l).head? = some c → c ∉ m.comment ∧ c ∉ m'.comment)
    {st st' : IniState} (h : L.foldlM (iniStep m) st = .ok st') (hbad : st'.bad = false) :
    L.foldlM (iniStep m') st = .ok st' := by
  induction L generalizing st with
  | nil => exact h
  | cons l L ih =>
    rw [List.foldlM_cons] at h ⊢
    cases hs : iniStep m st l with
    | error e => rw [hs] at h; exact absurd h (by simp [bind, Except.bind])
    | ok s1 =>
      rw [hs] at h
      have h1 := (fold_ok hpl L (fun x hx => hnl x (by simp [hx])) h hbad).1
      rw [step_agree hnv (hc l (by simp)) hs h1]
      exact ih (fun x hx => hnl x (by simp [hx])) (fun x hx => hc x (by simp [hx])) h

theorem textLines_mem {s l : Str} (h : l ∈ textLines s) : l ∈ splitChar '\n' s := by
  unfold textLines at h
  dsimp only at h
  split at h
  · exact List.mem_of_mem_dropLast h
  · exact h

/-- All comment signs of both readers, and no options without value. -/
def bothMode : IniMode := ⟨['#', ';', '/'], false⟩

theorem read_agree {text : Str} (hq : NoComments text) {c : Config} (h : iniRead dataMode text = .ok c) {m : IniMode}
    (hm : ∀ c ∈ m.comment, c = '#' ∨ c = ';' ∨ c = '/') : iniRead m text = .ok c := by
  unfold iniRead at h ⊢
  cases hf : (textLines text).foldlM (iniStep dataMode) {} with
  | error e => rw [hf] at h; exact absurd h (by simp [bind, Except.bind])
  | ok st =>
    rw [hf] at h
    change (if st.bad = true then _ else _) = _ at h
    split at h
    · exact absurd h (by simp)
    · rename_i hb
      have hb' : st.bad = false := by simpa using hb
      have hc : ∀ l ∈ textLines text, ∀ c, (strip l).head? = some c → c ∉ dataMode.comment ∧ c ∉ m.comment := by
        intro l hl c hc
        obtain ⟨h1, h2, h3⟩ := hq l (textLines_mem hl) c hc
        refine ⟨?_, ?_⟩
        · intro h
          have : c = '#' ∨ c = ';' := by simpa [dataMode] using h
          tauto
        · intro h
          have := hm c h
          tauto
      rw [fold_agree low_data rfl _ (textLines_nl text) hc hf hb']
      show (if st.bad = true then _ else _) = _
      rw [if_neg hb]
      exact h

theorem read_both {text : Str} (hq : NoComments text) {c : Config} (h : iniRead dataMode text = .ok c) :
    ConfOk bothMode.comment false c ∧ iniRead startMode text = .ok c := by
  refine ⟨read_ok (m := bothMode) (by decide) (read_agree hq h (m := bothMode) ?_), read_agree hq h ?_⟩
  · intro c hc; simpa [bothMode] using hc
  · intro c hc
    right; right
    simpa [startMode] using hc

/-- The file after the start. -/
theorem start_both {text t : Str} (hq : NoComments text) (hqt : NoComments t) {c tc : Config}
    (h : iniRead dataMode text = .ok c) (ht : iniRead dataMode t = .ok tc) :
    startConfig (some t) (some text) = (some (iniWrite (c.validate tc)), .ok true) ∧
    iniRead dataMode (iniWrite (c.validate tc)) = .ok (c.validate tc) := by
  obtain ⟨h1, h2⟩ := read_both hq h
  obtain ⟨h3, h4⟩ := read_both hqt ht
  refine ⟨?_, ?_⟩
  · unfold startConfig
    dsimp only [Option.getD_some]
    rw [h2, h4]
  · refine read_write (ps := bothMode.comment) (nv := false) (by decide) ?_ (by simp) (ini_validate_ok h1 h3)
    decide

/-! ## Interpolation -/

theorem scan_mono {map map' : Str → Option (Option Str)} {f f' : Str → Except IniErr Str}
    (hm : ∀ k v, map k = some v → map' k = some v) (hf : ∀ v r, f v = .ok r → f' v = .ok r) (s : Str) (z : IniScan) (r : Str)
    (h : iniScan map f z s = .ok r) : iniScan map' f' z s = .ok r := by
  have hmap : ∀ {a : Except IniErr Str} {b : Except IniErr Str} {g : Str → Str} {r : Str},
      (∀ r, a = .ok r → b = .ok r) → a.map g = .ok r → b.map g = .ok r := by
    intro a b g r hab h
    cases a with
    | error e => exact absurd h (by simp [Except.map])
    | ok x => rw [hab x rfl]; exact h
  induction s generalizing z r with
  | nil =>
    cases z with
    | plain => exact h
    | percent => exact absurd h (by simp [iniScan])
    | name _ => exact absurd h (by simp [iniScan])
    | close _ => exact absurd h (by simp [iniScan])
  | cons c t ih =>
    cases z with
    | plain =>
      rw [iniScan] at h ⊢
      split at h
      · rw [if_pos ‹_›]; exact ih _ _ h
      · rw [if_neg ‹_›]; exact hmap (fun r hr => ih _ r hr) h
    | percent =>
      rw [iniScan] at h ⊢
      split at h
      · rw [if_pos ‹_›]; exact hmap (fun r hr => ih _ r hr) h
      · rw [if_neg ‹_›]
        split at h
        · rw [if_pos ‹_›]; exact ih _ _ h
        · exact absurd h (by simp)
    | name acc =>
      rw [iniScan] at h ⊢
      split at h
      · rw [if_pos ‹_›]
        split at h
        · exact absurd h (by simp)
        · rw [if_neg ‹_›]; exact ih _ _ h
      · rw [if_neg ‹_›]; exact ih _ _ h
    | close acc =>
      rw [iniScan] at h ⊢
      split at h
      · rw [if_pos ‹_›]
        cases hv : map (lowerStr acc) with
        | none => rw [hv] at h; exact absurd h (by simp)
        | some x =>
          rw [hm _ _ hv]
          rw [hv] at h
          cases x with
          | none => exact absurd h (by simp)
          | some v =>
            dsimp only at h ⊢
            cases hx : (if '%' ∈ v then f v else Except.ok v : Except IniErr Str) with
            | error e => rw [hx] at h; exact absurd h (by simp [bind, Except.bind])
            | ok x =>
              have : (if '%' ∈ v then f' v else Except.ok v : Except IniErr Str) = .ok x := by
                split at hx
                · rw [if_pos ‹_›]; exact hf v x hx
                · rw [if_neg ‹_›]; exact hx
              rw [hx] at h
              rw [this]
              exact hmap (fun r hr => ih _ r hr) h
      · exact absurd h (by simp)

theorem interpolate_mono {map map' : Str → Option (Option Str)} (hm : ∀ k v, map k = some v → map' k = some v) (n : ℕ)
    (v r : Str) (h : interpolate map n v = .ok r) : interpolate map' n v = .ok r := by
  induction n generalizing v r with
  | zero => exact absurd h (by simp [interpolate])
  | succ n ih => exact scan_mono hm (fun v r h => ih v r h) v .plain r h

theorem scan_plain (map : Str → Option (Option Str)) (f : Str → Except IniErr Str) (s : Str) (h : '%' ∉ s) :
    iniScan map f .plain s = .ok s := by
  induction s with
  | nil => rfl
  | cons c t ih =>
    rw [iniScan, if_neg (by rintro rfl; exact h (by simp)), ih fun hc => h (by simp [hc])]
    rfl

theorem interpolate_plain (map : Str → Option (Option Str)) (n : ℕ) (s : Str) (h : '%' ∉ s) :
    interpolate map (n + 1) s = .ok s := scan_plain _ _ s h

/-! ## The claims -/

theorem getData_read {text : Str} {c : Config} (h : iniRead dataMode text = .ok c) (sec name : Str) :
    getDataText (some text) sec name = match c.own sec with
      | none => .ok .none
      | some s =>
        if name = [] then .ok (.section_ (c.items s))
        else match c.get s (lowerStr name) with
          | none => .ok .none
          | some none => .ok .none
          | some (some v) => (interpolate (c.get s) 10 v).map fun x => confVal (some x) := by
  unfold getDataText
  dsimp only
  rw [h]
  rfl

theorem getData_reads {text : Str} {sec name : Str} {v : ConfVal} (h : getDataText (some text) sec name = .ok v) :
    ∃ c, iniRead dataMode text = .ok c := by
  unfold getDataText at h
  dsimp only at h
  cases hr : iniRead dataMode text with
  | error e => rw [hr] at h; exact absurd h (by simp [bind, Except.bind])
  | ok c => exact ⟨c, rfl⟩

/-- A file that has what the user's file had, completed by the template, gives what that gave. -/
theorem kept_of_read {text text' : Str} {c tc : Config} (hc : iniRead dataMode text = .ok c) (hwf : WellFormed tc)
    (h2 : iniRead dataMode text' = .ok (c.validate tc)) {sec name : Str} (hname : name ≠ []) {v : ConfVal} (hv : v ≠ .none)
    (h : getDataText (some text) sec name = .ok v) : getDataText (some text') sec name = .ok v := by
  rw [getData_read hc] at h
  rw [getData_read h2]
  cases ho : c.own sec with
  | none =>
    rw [ho] at h
    exact absurd (Except.ok.inj h).symm hv
  | some s =>
    rw [ho] at h
    dsimp only at h
    rw [if_neg hname] at h
    obtain ⟨s', hs', hget⟩ := (validate_own (c := c) hwf sec).2 s ho
    rw [hs']
    dsimp only
    rw [if_neg hname]
    cases hg : c.get s (lowerStr name) with
    | none => rw [hg] at h; exact absurd (Except.ok.inj h).symm hv
    | some x =>
      rw [hg] at h
      rw [hget _ _ hg]
      cases x with
      | none => exact absurd (Except.ok.inj h).symm hv
      | some x =>
        dsimp only at h ⊢
        cases hi : interpolate (c.get s) 10 x with
        | error e => rw [hi] at h; exact absurd h (by simp [Except.map])
        | ok y =>
          rw [hi] at h
          rw [interpolate_mono hget 10 x y hi]
          exact h

/-- **C103**, for files without comments: every setting the user's file gives (`get_data` returns something other than `None`) is
still given, with the same value, after the application has been started; the start succeeds and leaves a file that can be
read. For files with comments see `C103_comments_kept` and `C103_comments_start`. Missing: comments together with indented lines or
lines that begin with `/`; see `C103_comment`, `C103_twice`, `C103_indented` and `C103_slash`. -/
theorem C103_kept_partial (text t : Str) (hq : NoComments text) (hqt : NoComments t) {a b : Str} {w : ConfVal}
    (ht : getDataText (some t) a b = .ok w) (sec name : Str) (hname : name ≠ []) (v : ConfVal) (hv : v ≠ .none)
    (h : getDataText (some text) sec name = .ok v) :
    ∃ text', startConfig (some t) (some text) = (some text', .ok true) ∧ getDataText (some text') sec name = .ok v := by
  obtain ⟨c, hc⟩ := getData_reads h
  obtain ⟨tc, htc⟩ := getData_reads ht
  obtain ⟨h1, h2⟩ := start_both hq hqt hc htc
  exact ⟨_, h1, kept_of_read hc (conf_wellFormed (read_both hqt htc).1) h2 hname hv h⟩

/-- A file that has what the user's file had, completed by the template, gives for other fields what the template gives. -/
theorem added_of_read {t text' : Str} {c tc : Config} (ht : iniRead dataMode t = .ok tc) (hwf : WellFormed tc)
    (h2 : iniRead dataMode text' = .ok (c.validate tc)) (hp : NoPercent tc) {sec name : Str}
    (hsec : sec ≠ "DEFAULT".toList) (hname : name ≠ []) (hno : field c sec (name.map Char.toLower) = none)
    (hdef : lookupKey (name.map Char.toLower) c.defaults = none) :
    getDataText (some text') sec name = getDataText (some t) sec name := by
  change field c sec (lowerStr name) = none at hno
  change lookupKey (lowerStr name) c.defaults = none at hdef
  obtain ⟨e1, e2, e3, e4, -⟩ := C56_validate c tc hwf sec (lowerStr name)
  obtain ⟨d, hl⟩ := validate_sections c tc tc.sections hwf.1 sec
  change (c.validate tc).defaults = _ at d
  change lookupKey sec (c.validate tc).sections = _ at hl
  rw [getData_read h2, getData_read ht]
  have own1 : ∀ c : Config, c.own sec = lookupKey sec c.sections := fun c => if_neg hsec
  rw [own1, own1]
  cases ht' : lookupKey sec tc.sections with
  | none =>
    rw [e4 ht']
    dsimp only
    cases hs : lookupKey sec c.sections with
    | none => rfl
    | some s =>
      dsimp only
      rw [if_neg hname]
      have : (c.validate tc).get s (lowerStr name) = none := by
        rw [field, hs] at hno
        rw [config_get_eq, d]; exact hno
      rw [this]
  | some ts =>
    rw [ht'] at hl
    dsimp only at hl
    rw [hl]
    dsimp only
    rw [if_neg hname, if_neg hname]
    have hf := e3 hno (by rw [ht']; rfl) hdef
    rw [field, hl, field, ht'] at hf
    have hg : (c.validate tc).get (addFields c ((lookupKey sec c.sections).getD []) (tc.items ts)) (lowerStr name) =
        tc.get ts (lowerStr name) := by
      rw [config_get_eq, config_get_eq]; exact hf
    rw [hg]
    cases hx : tc.get ts (lowerStr name) with
    | none => rfl
    | some x =>
      cases x with
      | none => rfl
      | some v =>
        dsimp only
        have hv : '%' ∉ v := by
          rw [config_get_eq] at hx
          cases hy : lookupKey (lowerStr name) ts with
          | some y =>
            rw [hy] at hx
            have : y = some v := Option.some.inj hx
            subst this
            have hm : (sec, ts) ∈ tc.sections := (lookupKey_mem hwf.1).1 ht'
            exact hp.2 _ hm _ ((lookupKey_mem (hwf.2.2 _ hm)).1 hy) v rfl
          | none =>
            rw [hy] at hx
            exact hp.1 _ ((lookupKey_mem hwf.2.1).1 hx) v rfl
        rw [interpolate_plain _ 9 v hv, interpolate_plain _ 9 v hv]

/-- **C103**, for files without comments: a setting that is in neither the section nor the defaults of the user's file is, after
the start, the one of the template. -/
theorem C103_added_partial (text t : Str) (hq : NoComments text) (hqt : NoComments t) {c tc : Config}
    (hc : iniRead dataMode text = .ok c) (ht : iniRead dataMode t = .ok tc) (hp : NoPercent tc) (sec name : Str)
    (hsec : sec ≠ "DEFAULT".toList) (hname : name ≠ []) (hno : field c sec (name.map Char.toLower) = none)
    (hdef : lookupKey (name.map Char.toLower) c.defaults = none) :
    ∃ text', startConfig (some t) (some text) = (some text', .ok true) ∧
      getDataText (some text') sec name = getDataText (some t) sec name := by
  obtain ⟨h1, h2⟩ := start_both hq hqt hc ht
  exact ⟨_, h1, added_of_read ht (conf_wellFormed (read_both hqt ht).1) h2 hp hsec hname hno hdef⟩

theorem validate_self {c : Config} (h : WellFormed c) : c.validate c = c := by
  have key : ∀ ss : List (Str × Section), (∀ s ∈ ss, s ∈ c.sections) →
      ss.foldl (fun d s => addSection d s.1 (c.items s.2)) c = c := by
    intro ss
    induction ss with
    | nil => exact fun _ => rfl
    | cons s ss ih =>
      intro hss
      have hm := hss s List.mem_cons_self
      have hl : lookupKey s.1 c.sections = some s.2 := (lookupKey_mem h.1).2 hm
      have hstep : addSection c s.1 (c.items s.2) = c := by
        rw [addSection, hl, Option.getD_some, addFields_same, assocSet_same hl]
        intro kv hkv
        rw [config_get_eq, ← items_lookup c s.2 (h.2.2 s hm), Option.isSome_iff_ne_none]
        intro hno
        exact (lookupKey_eq_none _ _).1 hno (List.mem_map.2 ⟨kv, hkv, rfl⟩)
      rw [List.foldl_cons, hstep]
      exact ih fun x hx => hss x (List.mem_cons_of_mem _ hx)
  exact key c.sections fun _ h => h

/-- **C103**: without a settings file the start makes one, from which everything is read as from the template. -/
theorem C103_first (t : Str) (hqt : NoComments t) {a b : Str} {w : ConfVal} (ht : getDataText (some t) a b = .ok w) :
    ∃ text', startConfig (some t) none = (some text', .ok true) ∧
      ∀ sec name, getDataText (some text') sec name = getDataText (some t) sec name := by
  obtain ⟨tc, htc⟩ := getData_reads ht
  obtain ⟨h1, h2⟩ := start_both hqt hqt htc htc
  rw [validate_self (conf_wellFormed (read_both hqt htc).1)] at h1 h2
  exact ⟨_, h1, fun sec name => by rw [getData_read h2, getData_read htc]⟩

/-- **C103**: starting again changes nothing in the file, not even a blank; for all files, with or without comments. -/
theorem C103_again (t : Str) (file : Option Str) (text' : Str) (h : startConfig (some t) file = (some text', .ok true)) :
    startConfig (some t) (some text') = (some text', .ok true) := by
  unfold startConfig at h
  dsimp only at h
  cases hc : iniRead startMode (file.getD t) with
  | error e => rw [hc] at h; exact absurd (Prod.mk.inj h).2 (by simp)
  | ok c =>
    rw [hc] at h
    dsimp only at h
    cases ht : iniRead startMode t with
    | error e => rw [ht] at h; exact absurd (Prod.mk.inj h).2 (by simp)
    | ok tc =>
      rw [ht] at h
      have hw : iniWrite (c.validate tc) = text' := Option.some.inj (Prod.mk.inj h).1
      have h1 := read_ok low_start hc
      have h2 := read_ok low_start ht
      have hr : iniRead startMode text' = .ok (c.validate tc) := by
        rw [← hw]
        exact read_write (by decide) (fun _ h => h) (fun h => h) (ini_validate_ok h1 h2)
      unfold startConfig
      dsimp only [Option.getD_some]
      rw [hr, ht]
      dsimp only
      rw [C56_idempotent c tc (conf_wellFormed h2), hw]

/-- **C103**: a start that fails, for whatever reason, leaves the file as it was (a missing one is a copy of the template); without
template the application reports invalid settings and touches nothing. -/
theorem C103_failed (t : Str) (file : Option Str) :
    (∀ e, (startConfig (some t) file).2 = .error e → (startConfig (some t) file).1 = some (file.getD t)) ∧
    (startConfig (some t) file).2 ≠ .ok false ∧ startConfig none file = (file, .ok false) := by
  refine ⟨?_, ?_, rfl⟩ <;>
  · unfold startConfig
    dsimp only
    cases iniRead startMode (file.getD t) with
    | error e => simp
    | ok c => cases iniRead startMode t <;> simp

/-! ## Settings as they are written -/

/-- The settings as they are stored. -/
def confOf (u : Settings) : Config := ⟨[], u.map fun s => (s.1, s.2.map fun e => (e.1, some e.2))⟩

theorem text_write {u : Settings} (hu : Writable u) : iniWrite (confOf u) = settingsText u := by
  unfold iniWrite confOf settingsText
  dsimp only
  rw [if_pos rfl, List.nil_append, List.flatMap_map]
  refine List.flatMap_congr fun s hs => ?_
  have : ((s.2.map fun e => (e.1, some e.2)).flatMap iniWriteEntry : Str) =
      s.2.flatMap fun e => e.1 ++ " = ".toList ++ e.2 ++ "\n".toList := by
    rw [List.flatMap_map]
    refine List.flatMap_congr fun e he => ?_
    have := ((hu.2 s hs).2.2.2.2 e he).2.2.1
    unfold iniWriteEntry
    dsimp only
    rw [indentNl_line this, ← List.append_assoc]
    rfl
  unfold iniWriteSection
  rw [this]
  rfl

theorem confOf_ok {u : Settings} (hu : Writable u) : ConfOk bothMode.comment false (confOf u) := by
  refine ⟨?_, ⟨List.nodup_nil, by simp [confOf]⟩, ?_⟩
  · show ((u.map fun s => (s.1, _)).map Prod.fst).Nodup
    rw [List.map_map]
    exact hu.1
  · intro s hs
    obtain ⟨s, hm, rfl⟩ := List.mem_map.1 hs
    obtain ⟨h1, h2, h3, h4, h5⟩ := hu.2 s hm
    refine ⟨⟨h1, h2, h3⟩, ?_, ?_⟩
    · dsimp only
      rw [List.map_map]
      exact h4
    · intro e he
      obtain ⟨e, hm, rfl⟩ := List.mem_map.1 he
      obtain ⟨⟨k1, k2, k3, k4, k5, k6, k7⟩, v1, v2, v3⟩ := h5 e hm
      have hj : joinStr "\n".toList [e.2] = e.2 := rfl
      refine ⟨some [e.2], ⟨⟨k1, k2, k3, ?_, k6, ?_⟩, ⟨v1, v2⟩, by simp, ?_⟩, .inr ⟨_, rfl, congrArg some hj.symm, ?_⟩⟩
      · intro c hc
        have h1 : c ≠ '=' := by rintro rfl; exact k4 hc
        have h2 : c ≠ ':' := by rintro rfl; exact k5 hc
        simp [isDelim, h1, h2]
      · intro c hc hm
        refine k7 c hc ?_
        rcases (by simpa [bothMode] using hm : c = '#' ∨ c = ';' ∨ c = '/') with rfl | rfl | rfl <;> simp
      · rintro ⟨hc, -⟩
        exact k7 _ hc (by simp)
      · rw [joinVal, hj]
        exact rstrip_tight v1.2

theorem means_iff {v : Str} {r : ConfVal} : ValueMeans v r ↔ confVal (some v) = r := by
  unfold ValueMeans confVal
  dsimp only
  by_cases h1 : v = "True".toList
  · subst h1; rw [if_pos rfl]
    constructor
    · rintro (h | h | h | h)
      · exact h.2.symm
      · exact absurd h.1 (by decide)
      · exact absurd h.1 (by decide)
      · exact absurd rfl h.1
    · exact fun h => .inl ⟨rfl, h.symm⟩
  rw [if_neg h1]
  by_cases h2 : v = "False".toList
  · subst h2; rw [if_pos rfl]
    constructor
    · rintro (h | h | h | h)
      · exact absurd h.1 (by decide)
      · exact h.2.symm
      · exact absurd h.1 (by decide)
      · exact absurd rfl h.2.1
    · exact fun h => .inr (.inl ⟨rfl, h.symm⟩)
  rw [if_neg h2]
  by_cases h3 : v = "None".toList
  · subst h3; rw [if_pos rfl]
    constructor
    · rintro (h | h | h | h)
      · exact absurd h.1 (by decide)
      · exact absurd h.1 (by decide)
      · exact h.2.symm
      · exact absurd rfl h.2.2.1
    · exact fun h => .inr (.inr (.inl ⟨rfl, h.symm⟩))
  rw [if_neg h3]
  constructor
  · rintro (h | h | h | h)
    · exact absurd h.1 h1
    · exact absurd h.1 h2
    · exact absurd h.1 h3
    · exact h.2.2.2.symm
  · exact fun h => .inr (.inr (.inr ⟨h1, h2, h3, h.symm⟩))

/-- **C103**: settings written to the file are read back: `get_data` gives the value (the words `True`, `False` and `None` as
such) for the name of the field in any case, and `None` for a section or field that is not there. So it does after the
application has been started, for every field the user has set; the file is then valid. -/
theorem C103_text (u : Settings) (hu : Writable u) (t : Str) (hqt : NoComments t) {a b : Str} {w : ConfVal}
    (ht : getDataText (some t) a b = .ok w) :
    ∃ text', startConfig (some t) (some (settingsText u)) = (some text', .ok true) ∧
    (∀ s ∈ u, ∀ e ∈ s.2, ∀ name, name.map Char.toLower = e.1 → ∃ r, ValueMeans e.2 r ∧
      getDataText (some (settingsText u)) s.1 name = .ok r ∧ getDataText (some text') s.1 name = .ok r) ∧
    (∀ s ∈ u, ∀ name, name ≠ [] → (∀ e ∈ s.2, name.map Char.toLower ≠ e.1) → getDataText (some (settingsText u)) s.1 name = .ok .none) ∧
    (∀ sec, sec ≠ "DEFAULT".toList → (∀ s ∈ u, s.1 ≠ sec) → ∀ name, getDataText (some (settingsText u)) sec name = .ok .none) := by
  have hok := confOf_ok hu
  obtain ⟨tc, htc⟩ := getData_reads ht
  obtain ⟨t1, t2⟩ := read_both hqt htc
  have hwf := conf_wellFormed hok
  have hread : ∀ m : IniMode, '[' ∉ m.comment → (∀ c ∈ m.comment, c ∈ bothMode.comment) →
      iniRead m (settingsText u) = .ok (confOf u) := fun m h1 h2 => by
    rw [← text_write hu]
    exact read_write h1 h2 (by simp) hok
  have hd := hread dataMode (by decide) (by decide)
  have hs := hread startMode (by decide) (by decide)
  have hv : iniRead dataMode (iniWrite ((confOf u).validate tc)) = .ok ((confOf u).validate tc) :=
    read_write (ps := bothMode.comment) (nv := false) (by decide) (by decide) (by simp) (ini_validate_ok hok t1)
  have hown : ∀ s ∈ u, (confOf u).own s.1 = some (s.2.map fun e => (e.1, some e.2)) := by
    intro s hm
    rw [show (confOf u).own s.1 = lookupKey s.1 (confOf u).sections from if_neg (hu.2 s hm).2.1]
    exact (lookupKey_mem hwf.1).2 (List.mem_map.2 ⟨s, hm, rfl⟩)
  refine ⟨iniWrite ((confOf u).validate tc), ?_, ?_, ?_, ?_⟩
  · unfold startConfig
    dsimp only [Option.getD_some]
    rw [hs, t2]
  · intro s hm e he name hn
    change lowerStr name = e.1 at hn
    refine ⟨confVal (some e.2), means_iff.2 rfl, ?_⟩
    obtain ⟨hk, -, -, hp⟩ := (hu.2 s hm).2.2.2.2 e he
    have hne : name ≠ [] := by
      rintro rfl
      exact hk.1 (by rw [← hn]; rfl)
    have hget : (confOf u).get (s.2.map fun e => (e.1, some e.2)) (lowerStr name) = some (some e.2) := by
      rw [config_get_eq, hn, (lookupKey_mem (hwf.2.2 (s.1, _) (List.mem_map.2 ⟨s, hm, rfl⟩))).2 (List.mem_map.2 ⟨e, he, rfl⟩)]
      rfl
    obtain ⟨s', hs', hkeep⟩ := (validate_own (c := confOf u) (conf_wellFormed t1) s.1).2 _ (hown s hm)
    constructor
    · rw [getData_read hd, hown s hm]
      dsimp only
      rw [if_neg hne, hget]
      dsimp only
      rw [interpolate_plain _ 9 _ hp]
      rfl
    · rw [getData_read hv, hs']
      dsimp only
      rw [if_neg hne, hkeep _ _ hget]
      dsimp only
      rw [interpolate_plain _ 9 _ hp]
      rfl
  · intro s hm name hne hno
    rw [getData_read hd, hown s hm]
    dsimp only
    rw [if_neg hne]
    have : (confOf u).get (s.2.map fun e => (e.1, some e.2)) (lowerStr name) = none := by
      rw [config_get_eq, (lookupKey_eq_none _ _).2]
      · rfl
      · rw [List.map_map]
        intro hm
        obtain ⟨e, he, h⟩ := List.mem_map.1 hm
        exact hno e he h.symm
    rw [this]
  · intro sec hsec hno name
    rw [getData_read hd, show (confOf u).own sec = lookupKey sec (confOf u).sections from if_neg hsec, (lookupKey_eq_none _ _).2]
    rw [confOf, List.map_map]
    intro hm
    obtain ⟨s, hs, h⟩ := List.mem_map.1 hm
    exact hno s hs h

/-! ## What comments do -/

theorem textLines_cons {l : Str} (h : '\n' ∉ l) (s : Str) : textLines (l ++ '\n' :: s) = l :: textLines s := by
  unfold textLines
  rw [splitChar_cons h]
  dsimp only
  obtain ⟨p, ps, hp⟩ := List.exists_cons_of_ne_nil (splitChar_ne_nil '\n' s)
  rw [hp, List.getLast?_cons_cons]
  split <;> simp

theorem strip_cons {c : Char} (hc : isSpace c = false) (x : Str) : ∃ v, strip (c :: x) = c :: v := by
  obtain ⟨a, b, hab, ha, hb, -⟩ := trim_strip (c :: x)
  cases a with
  | cons d a =>
    rw [List.cons_append, List.cons_append] at hab
    have : c = d := (List.cons.inj hab).1
    rw [this] at hc
    have := ha d (by simp)
    rw [hc] at this
    exact absurd this (by simp)
  | nil =>
    rw [List.nil_append] at hab
    cases hs : strip (c :: x) with
    | cons d v =>
      rw [hs] at hab
      exact ⟨v, by rw [← (List.cons.inj hab).1]⟩
    | nil =>
      rw [hs] at hab
      have := hb c (by rw [List.nil_append] at hab; rw [← hab]; simp)
      rw [hc] at this
      exact absurd this (by simp)

/-- **C103** (against it): a file that begins with a comment is read as if the comment were not there, but the application does
not start with it: `MissingSectionHeaderError` leaves the constructor. -/
theorem C103_comment (t text x : Str) (c : Char) (hc : c = '#' ∨ c = ';') (hx : '\n' ∉ x) :
    startConfig (some t) (some (c :: x ++ '\n' :: text)) = (some (c :: x ++ '\n' :: text), .error .missingHeader) ∧
    ∀ sec name, getDataText (some (c :: x ++ '\n' :: text)) sec name = getDataText (some text) sec name := by
  have hsp : isSpace c = false := by rcases hc with rfl | rfl <;> decide
  have hnl : '\n' ∉ c :: x := by
    rcases hc with rfl | rfl <;> simp [hx]
  obtain ⟨v, hv⟩ := strip_cons hsp x
  constructor
  · have : iniRead startMode (c :: x ++ '\n' :: text) = .error .missingHeader := by
      unfold iniRead
      rw [textLines_cons hnl, List.foldlM_cons]
      have hi : indentOf (c :: x) = 0 := by
        rw [indentOf, List.takeWhile_cons_of_neg (by simp [hsp])]; rfl
      have hstep : iniStep startMode {} (c :: x) = .error .missingHeader := by
        rw [step_new rfl (by rw [hv]; simp) hi (by
          rw [hv]; intro d hd; cases hd; rcases hc with rfl | rfl <;> decide), hv]
        rcases hc with rfl | rfl <;> rfl
      rw [hstep]
      rfl
    unfold startConfig
    dsimp only [Option.getD_some]
    rw [this]
  · intro sec name
    have : iniRead dataMode (c :: x ++ '\n' :: text) = iniRead dataMode text := by
      unfold iniRead
      rw [textLines_cons hnl, List.foldlM_cons]
      have hstep : iniStep dataMode {} (c :: x) = .ok {} := by
        unfold iniStep
        rw [hv]
        dsimp only
        rw [if_pos (by rcases hc with rfl | rfl <;> decide)]
      rw [hstep]
      rfl
    unfold getDataText
    dsimp only
    rw [this]

/-- **C103** (against it): two equal comments in a section, each read past by `get_data`, stop the application from starting. -/
theorem C103_twice : ∃ text, (∃ v, getDataText (some text) "global.other".toList "help_url".toList = .ok v ∧ v ≠ .none) ∧
    startConfig (some shippedTemplate) (some text) = (some text, .error .duplicateOption) := by
  refine ⟨"[global.other]\n# the page\nhelp_url = a\n# the page\nn = 1\n".toList, ⟨.str "a".toList, ?_, by simp⟩, ?_⟩ <;>
    decide +kernel

/-- **C103** (against it): so does a comment before an indented line (an `AttributeError`). -/
theorem C103_indented : ∃ text, (∃ v, getDataText (some text) "global.other".toList "help_url".toList = .ok v ∧ v ≠ .none) ∧
    startConfig (some shippedTemplate) (some text) = (some text, .error .attribute) := by
  refine ⟨"[global.other]\n# the page\n  help_url = a\n".toList, ⟨.str "a".toList, ?_, by simp⟩, ?_⟩ <;>
    decide +kernel

/-- **C103** (against it): lines of a value that begin with `/`, such as the paths of a list, are deleted from the user's file by
starting the application. -/
theorem C103_slash : ∃ text text' v v', getDataText (some text) "data".toList "folders".toList = .ok v ∧
    startConfig (some shippedTemplate) (some text) = (some text', .ok true) ∧
    getDataText (some text') "data".toList "folders".toList = .ok v' ∧ v ≠ v' := by
  refine ⟨"[data]\nfolders =\n  /a\n  /b\n".toList, "[data]\nfolders = \n\n".toList ++ shippedTemplate ++ ['\n'], .str "\n/a\n/b".toList, .str [], ?_, ?_, ?_, ?_⟩ <;>
    decide +kernel

/-- **C103**: a page given with a `%` that is not doubled passes the start as valid, and opening the help page then raises an
error of interpolation: `get_data` catches only `KeyError`. -/
theorem C103_percent : ∃ text text', startConfig (some shippedTemplate) (some text) = (some text', .ok true) ∧
    helpPage (some text') true = .error .interpolation := by
  refine ⟨"[global.other]\nhelp_url = https://a/b%20c\n".toList, _, Prod.ext rfl (by decide +kernel), by decide +kernel⟩

end Tavi
