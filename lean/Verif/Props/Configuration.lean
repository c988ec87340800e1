import Verif.Model.App
import Verif.Lemmas.Assoc

/-! # C56: configuration -/

namespace Tavi

/-- A well-formed configuration: no section and no field twice (`ConfigParser` refuses such files). -/
def Spec.WellFormed (c : Config) : Prop :=
  (c.sections.map Prod.fst).Nodup ∧ (c.defaults.map Prod.fst).Nodup ∧ ∀ s ∈ c.sections, (s.2.map Prod.fst).Nodup

/-- What a user finds at a section and field: `none` if there is no such section or field. -/
def Spec.field (c : Config) (sec field : Str) : Option (Option Str) :=
  (lookupKey sec c.sections).bind fun s => (lookupKey field s).or (lookupKey field c.defaults)

theorem config_get_eq (c : Config) (sec : Section) (f : Str) : c.get sec f = (lookupKey f sec).or (lookupKey f c.defaults) := by
  rw [Config.get]
  cases lookupKey f sec <;> rfl

theorem addFields_get (c : Config) (sec items : Section) (f : Str) :
    c.get (addFields c sec items) f = (c.get sec f).or (lookupKey f items) := by
  induction items generalizing sec with
  | nil => rw [addFields, lookupKey]; simp
  | cons kv rest ih =>
    obtain ⟨field, v⟩ := kv
    rw [addFields, lookupKey]
    split
    · rename_i h
      rw [ih]
      by_cases hf : field = f
      · subst hf
        obtain ⟨w, hw⟩ := Option.isSome_iff_exists.1 h
        rw [hw]; rfl
      · rw [if_neg hf]
    · rename_i h
      have hn : c.get sec field = none := by simpa using h
      rw [ih]
      by_cases hf : field = f
      · subst hf
        rw [if_pos rfl, hn, config_get_eq, lookupKey_assocSet, if_pos rfl]; rfl
      · rw [if_neg hf, config_get_eq, lookupKey_assocSet, if_neg (Ne.symm hf), ← config_get_eq]

theorem addFields_defaults {c c' : Config} (h : c.defaults = c'.defaults) (sec items : Section) :
    addFields c sec items = addFields c' sec items := by
  induction items generalizing sec with
  | nil => rfl
  | cons kv rest ih =>
    obtain ⟨field, v⟩ := kv
    rw [addFields, addFields, ih, ih, config_get_eq, config_get_eq, h]

theorem validate_sections (c template : Config) (ts : List (Str × Section)) (hts : (ts.map Prod.fst).Nodup) (n : Str) :
    (ts.foldl (fun c s => addSection c s.1 (template.items s.2)) c).defaults = c.defaults ∧
    lookupKey n (ts.foldl (fun c s => addSection c s.1 (template.items s.2)) c).sections =
      match lookupKey n ts with
      | none => lookupKey n c.sections
      | some s => some (addFields c ((lookupKey n c.sections).getD []) (template.items s)) := by
  induction ts generalizing c with
  | nil => exact ⟨rfl, rfl⟩
  | cons kv ts ih =>
    obtain ⟨k, s⟩ := kv
    rw [List.map_cons, List.nodup_cons] at hts
    obtain ⟨i1, i2⟩ := ih (addSection c k (template.items s)) hts.2
    rw [List.foldl_cons]
    refine ⟨i1, i2.trans ?_⟩
    rw [lookupKey]
    by_cases hk : k = n
    · subst hk
      rw [if_pos rfl, (lookupKey_eq_none ts k).2 hts.1]
      dsimp only
      rw [addSection, lookupKey_assocSet, if_pos rfl]
    · rw [if_neg hk]
      have : lookupKey n (addSection c k (template.items s)).sections = lookupKey n c.sections := by
        rw [addSection, lookupKey_assocSet, if_neg (Ne.symm hk)]
      rw [this]
      cases lookupKey n ts with
      | none => rfl
      | some s' => exact congrArg some (addFields_defaults (by rfl) _ _)

theorem items_lookup (t : Config) (s : Section) (h : (s.map Prod.fst).Nodup) (f : Str) :
    lookupKey f (t.items s) = (lookupKey f s).or (lookupKey f t.defaults) := lookupKey_assocUpdate _ h f

/-- **C56**: after validation every section of the configuration or the template exists; a field the user had (in its section
or by default) has the value it had; a field the user had not has the value of the template, and is missing if the template has
none. -/
theorem C56_validate (c template : Config) (ht : Spec.WellFormed template) (n f : Str) :
    ((lookupKey n (c.validate template).sections).isSome ↔
      (lookupKey n c.sections).isSome ∨ (lookupKey n template.sections).isSome) ∧
    (∀ v, Spec.field c n f = some v → Spec.field (c.validate template) n f = some v) ∧
    (Spec.field c n f = none → (lookupKey n template.sections).isSome = true → lookupKey f c.defaults = none →
      Spec.field (c.validate template) n f = Spec.field template n f) ∧
    ((lookupKey n template.sections) = none → lookupKey n (c.validate template).sections = lookupKey n c.sections) ∧
    (∀ v, lookupKey f c.defaults = some v → Spec.field c n f = none → ∀ w, Spec.field template n f = some w →
      Spec.field (c.validate template) n f = some v) := by
  obtain ⟨d, h⟩ := validate_sections c template template.sections ht.1 n
  change lookupKey n (c.validate template).sections = _ at h
  change (c.validate template).defaults = _ at d
  cases hl : lookupKey n template.sections with
  | none =>
    rw [hl] at h
    dsimp only at h
    refine ⟨by rw [h]; simp, ?_, by simp, fun _ => h, ?_⟩
    · intro v hv
      rw [Spec.field, h, d]; exact hv
    · intro v _ _ w hw
      rw [Spec.field, hl] at hw
      exact absurd hw (by simp)
  | some s =>
    rw [hl] at h
    dsimp only at h
    have hs : (s.map Prod.fst).Nodup := ht.2.2 (n, s) ((lookupKey_mem ht.1).1 hl)
    have key : Spec.field (c.validate template) n f =
        (c.get ((lookupKey n c.sections).getD []) f).or (Spec.field template n f) := by
      rw [Spec.field, h, d]
      show (lookupKey f (addFields c _ _)).or _ = _
      rw [← config_get_eq, addFields_get, items_lookup _ _ hs, Spec.field, hl]
      rfl
    refine ⟨by rw [h]; simp, ?_, ?_, by simp, ?_⟩
    · intro v hv
      rw [key]
      cases hc : lookupKey n c.sections with
      | none => rw [Spec.field, hc] at hv; simp at hv
      | some cs =>
        rw [Spec.field, hc] at hv
        have hv' : c.get cs f = some v := by rw [config_get_eq]; exact hv
        show (c.get cs f).or _ = _
        rw [hv']; rfl
    · intro hn _ hdef
      rw [key]
      cases hc : lookupKey n c.sections with
      | none =>
        show (c.get [] f).or _ = _
        rw [config_get_eq, hdef]; rfl
      | some cs =>
        rw [Spec.field, hc] at hn
        have hv' : c.get cs f = none := by rw [config_get_eq]; exact hn
        show (c.get cs f).or _ = _
        rw [hv']; rfl
    · intro v hv hn w hw
      rw [key]
      cases hc : lookupKey n c.sections with
      | none =>
        show (c.get [] f).or _ = _
        rw [config_get_eq, hv]; rfl
      | some cs =>
        rw [Spec.field, hc] at hn
        have hn' : (lookupKey f cs).or (lookupKey f c.defaults) = none := hn
        rw [hv] at hn'
        cases h2 : lookupKey f cs <;> rw [h2] at hn' <;> simp at hn'

theorem assocSet_same {β : Type} {l : List (Str × β)} {k : Str} {v : β} (h : lookupKey k l = some v) : assocSet l k v = l := by
  induction l with
  | nil => simp [lookupKey] at h
  | cons kv l ih =>
    obtain ⟨k', v'⟩ := kv
    rw [lookupKey] at h
    rw [assocSet]
    by_cases hk : k' = k
    · rw [if_pos hk] at h ⊢
      rw [Option.some.inj h]
    · rw [if_neg hk] at h ⊢
      rw [ih h]

theorem addFields_same {c : Config} {sec items : Section} (h : ∀ kv ∈ items, (c.get sec kv.1).isSome = true) :
    addFields c sec items = sec := by
  induction items with
  | nil => rfl
  | cons kv rest ih =>
    obtain ⟨field, v⟩ := kv
    rw [addFields, if_pos (h _ List.mem_cons_self)]
    exact ih fun kv hkv => h kv (List.mem_cons_of_mem _ hkv)

/-- **C56**: validating again changes nothing, not even the order of sections and fields. -/
theorem C56_idempotent (c template : Config) (ht : Spec.WellFormed template) :
    (c.validate template).validate template = c.validate template := by
  have fix : ∀ ts : List (Str × Section), (∀ s ∈ ts, s ∈ template.sections) →
      ts.foldl (fun c s => addSection c s.1 (template.items s.2)) (c.validate template) = c.validate template := by
    intro ts
    induction ts with
    | nil => intro _; rfl
    | cons s ts ih =>
      intro hts
      rw [List.foldl_cons]
      have hs := hts s (by simp)
      obtain ⟨d, h⟩ := validate_sections c template template.sections ht.1 s.1
      change lookupKey s.1 (c.validate template).sections = _ at h
      change (c.validate template).defaults = _ at d
      rw [(lookupKey_mem ht.1).2 hs] at h
      dsimp only at h
      have step : addSection (c.validate template) s.1 (template.items s.2) = c.validate template := by
        rw [addSection, h, Option.getD_some, addFields_same, assocSet_same h]
        intro kv hkv
        rw [config_get_eq, d, ← config_get_eq, addFields_get, Option.isSome_or, Bool.or_eq_true]
        right
        have : kv.1 ∈ (template.items s.2).map Prod.fst := List.mem_map.2 ⟨kv, hkv, rfl⟩
        rw [Option.isSome_iff_ne_none]
        intro hno
        exact (lookupKey_eq_none _ _).1 hno this
      rw [step]
      exact ih fun s' hs' => hts s' (by simp [hs'])
  exact fix template.sections fun s hs => hs

/-- What a configured text means. -/
inductive Spec.ConfReads : Str → ConfVal → Prop
  | true : Spec.ConfReads "True".toList (.bool true)
  | false : Spec.ConfReads "False".toList (.bool false)
  | none : Spec.ConfReads "None".toList .none
  | text (s) : s ≠ "True".toList → s ≠ "False".toList → s ≠ "None".toList → Spec.ConfReads s (.str s)

/-- **C56**: `get_data` returns the configured text, booleans and `None` as such; `None` if there is no file, section or
field. -/
theorem C56_get (c : Config) (n f : Str) (hf : f ≠ []) :
    (∀ s, Spec.field c n f = some (some s) → Spec.ConfReads s (getData (some c) n f)) ∧
    (Spec.field c n f = none → getData (some c) n f = .none) ∧ getData none n f = .none := by
  refine ⟨?_, ?_, rfl⟩
  · intro s hs
    rw [Spec.field] at hs
    rw [getData]
    cases hc : lookupKey n c.sections with
    | none => rw [hc] at hs; simp at hs
    | some sec =>
      rw [hc] at hs
      have hg : c.get sec f = some (some s) := by rw [config_get_eq]; exact hs
      dsimp only
      rw [if_neg hf, hg]
      show Spec.ConfReads s (confVal (some s))
      rw [confVal]
      split
      · rename_i h; subst h; exact .true
      · split
        · rename_i h; subst h; exact .false
        · split
          · rename_i h; subst h; exact .none
          · rename_i h1 h2 h3; exact .text s h1 h2 h3
  · intro hn
    rw [Spec.field] at hn
    rw [getData]
    cases hc : lookupKey n c.sections with
    | none => rfl
    | some sec =>
      rw [hc] at hn
      have hg : c.get sec f = none := by rw [config_get_eq]; exact hn
      dsimp only
      rw [if_neg hf, hg]

/-! ## Concrete case -/

namespace Demo

def userConf : Config := ⟨[], [("global.other".toList, [("mine".toList, some "True".toList)]), ("own".toList, [])]⟩
def templ : Config := ⟨[], [("global.other".toList, [("mine".toList, some "False".toList), ("help_url".toList, some "x".toList)]),
  ("new".toList, [("a".toList, none)])]⟩

example : Spec.WellFormed templ := by unfold Spec.WellFormed; decide
example : (userConf.validate templ).sections =
    [("global.other".toList, [("mine".toList, some "True".toList), ("help_url".toList, some "x".toList)]), ("own".toList, []),
     ("new".toList, [("a".toList, none)])] := by decide +kernel
example : getData (some (userConf.validate templ)) "global.other".toList "mine".toList = .bool true := by decide +kernel

end Demo

end Tavi
