import Verif.Model.Config
import Verif.Lemmas.Assoc
import Verif.Lemmas.Numpy
import Verif.Props.Filter
import Verif.Props.Loads

/-!
# C83: the spectrometer loaded from a configuration

The attributes of the components after `load_instrument_params_from_json`, whether it succeeds or not, and after `update`.
-/

namespace Tavi

/-- The attribute `key` of the component `comp`. -/
def Spec.attr (t : TasBase) (comp key : Str) : Option Cfg :=
  match lookupKey comp t.parts with
  | some (some a) => lookupKey key a
  | _ => none

/-- The configuration describes that component with these parameters: distinct names, none of them a property. -/
def Spec.Describes (cfg : InstrConfig) (comp : Str) (props : List Str) (p : Attrs) : Prop :=
  lookupKey comp cfg = some (some p) ∧ (p.map Prod.fst).Nodup ∧ ∀ k ∈ p.map Prod.fst, k ∉ props

/-- A configuration as it comes out of a JSON file: the names of the parameters of a component are distinct. -/
def Spec.Decoded (cfg : InstrConfig) : Prop := ∀ comp p, lookupKey comp cfg = some (some p) → (p.map Prod.fst).Nodup

open Spec

/-! ## One component -/

theorem setAttribute_ok {c : CompClass} {a : Attrs} {kv : Str × Cfg} (h : kv.1 ∉ c.properties) :
    setAttribute c a kv = .ok (assocSet a kv.1 kv.2) := if_neg h

theorem setAttribute_error {c : CompClass} {a : Attrs} {kv : Str × Cfg} (h : kv.1 ∈ c.properties) :
    setAttribute c a kv = .error .attributeError := if_pos h

theorem foldl_set_ok {c : CompClass} {p : Attrs} (h : ∀ k ∈ p.map Prod.fst, k ∉ c.properties) (a : Attrs) :
    p.foldlM (setAttribute c) a = .ok (assocUpdate a p) := by
  induction p generalizing a with
  | nil => rfl
  | cons kv p ih =>
    rw [List.foldlM_cons, setAttribute_ok (h _ List.mem_cons_self), py_bind_ok,
      ih (fun k hk => h k (List.mem_cons_of_mem _ hk))]
    rfl

theorem foldl_set_error {c : CompClass} {p : Attrs} {k : Str} (hk : k ∈ p.map Prod.fst) (hp : k ∈ c.properties) (a : Attrs) :
    p.foldlM (setAttribute c) a = .error .attributeError := by
  induction p generalizing a with
  | nil => cases hk
  | cons kv p ih =>
    rw [List.foldlM_cons]
    by_cases h : kv.1 ∈ c.properties
    · rw [setAttribute_error h]; rfl
    · rw [setAttribute_ok h, py_bind_ok]
      refine ih ?_ _
      rcases List.mem_cons.1 (List.map_cons ▸ hk) with e | e
      · exact absurd (e ▸ hp) h
      · exact e

theorem foldl_set_inv {c : CompClass} {p : Attrs} {a b : Attrs} (h : p.foldlM (setAttribute c) a = .ok b) :
    (∀ k ∈ p.map Prod.fst, k ∉ c.properties) ∧ b = assocUpdate a p := by
  have hp : ∀ k ∈ p.map Prod.fst, k ∉ c.properties := fun k hk hk' => by
    rw [foldl_set_error hk hk' a] at h; cases h
  rw [foldl_set_ok hp] at h
  exact ⟨hp, (Except.ok.inj h).symm⟩

/-- What a component is before `finish`. -/
theorem load_lookup {c : CompClass} {name : Str} {p a : Attrs} (hn : (p.map Prod.fst).Nodup) (h : c.load name p = .ok a)
    (x : Str) : lookupKey x a = (lookupKey x p).or (if x = "component_name".toList then some (.str name) else lookupKey x c.defaults) := by
  rw [(foldl_set_inv h).2, lookupKey_assocUpdate _ hn, lookupKey_assocSet]

/-- Nothing follows the loading, or only the d-spacing and the name are set. -/
def FinishOk (c : CompClass) : Prop :=
  ∀ n a b, c.finish n a = .ok b → ∀ x, x ≠ "component_name".toList → x ≠ "d_spacing".toList → lookupKey x b = lookupKey x a

theorem plain_finish (d : Attrs) (ps : List Str) : FinishOk (plainClass d ps) := by
  intro n a b h x _ _
  rw [← Except.ok.inj h]

theorem goni_finish : FinishOk goniClass := by
  intro n a b h x h1 _
  rw [← Except.ok.inj h, lookupKey_assocSet, if_neg h1]

theorem mono_finish : FinishOk monoAnaClass := by
  intro n a b h x _ h2
  obtain ⟨d, _, e⟩ := map_eq_ok.1 h
  rw [← e, lookupKey_assocSet, if_neg h2]

theorem finish_all : ∀ nc ∈ components, FinishOk nc.2 := by
  intro nc h
  simp only [components, List.mem_cons, List.not_mem_nil, or_false] at h
  rcases h with rfl | rfl | rfl | rfl | rfl | rfl | rfl | rfl | rfl
  exacts [plain_finish _ _, plain_finish _ _, plain_finish _ _, mono_finish, plain_finish _ _, goni_finish, mono_finish,
    plain_finish _ _, plain_finish _ _]

theorem make_lookup {c : CompClass} {name : Str} {p a : Attrs} (hf : FinishOk c) (hn : (p.map Prod.fst).Nodup)
    (h : c.make name p = .ok a) {x : Str} (h1 : x ≠ "component_name".toList) (h2 : x ≠ "d_spacing".toList) :
    lookupKey x a = (lookupKey x p).or (lookupKey x c.defaults) := by
  obtain ⟨b, hb, ha⟩ := py_bind_eq_ok.1 h
  rw [hf _ _ _ ha x h1 h2, load_lookup hn hb, if_neg h1]

/-! ## All components -/

theorem names_nodup : (components.map Prod.fst).Nodup := by
  have : components.map Prod.fst = componentNames := rfl
  rw [this]; decide

/-- The components a configuration does not describe stay, whatever happens. -/
theorem loadParts_other (cfg : InstrConfig) (l : List (Str × CompClass)) (ps : List (Str × Option Attrs)) {x : Str}
    (h : x ∉ l.map Prod.fst ∨ ∀ p, lookupKey x cfg ≠ some (some p)) : lookupKey x (loadParts cfg l ps).1 = lookupKey x ps := by
  induction l generalizing ps with
  | nil => rfl
  | cons nc l ih =>
    obtain ⟨n, c⟩ := nc
    have h' : x ∉ l.map Prod.fst ∨ ∀ p, lookupKey x cfg ≠ some (some p) :=
      h.imp (fun h hm => h (by rw [List.map_cons]; exact List.mem_cons_of_mem _ hm)) id
    rw [loadParts]
    split
    · rename_i p hp
      split
      · rw [ih _ h', lookupKey_assocSet, if_neg]
        rintro rfl
        rcases h with h | h
        · exact h (by rw [List.map_cons]; exact List.mem_cons_self)
        · exact h p hp
      · rfl
    · exact ih _ h'

/-- A component is what its class makes of the parameters, if the loop comes that far. -/
theorem loadParts_made (cfg : InstrConfig) {l : List (Str × CompClass)} (hl : (l.map Prod.fst).Nodup)
    {ps ps' : List (Str × Option Attrs)} (h : loadParts cfg l ps = (ps', .ok ())) {n : Str} {c : CompClass} (hm : (n, c) ∈ l)
    {p : Attrs} (hp : lookupKey n cfg = some (some p)) :
    ∃ a, c.make n p = .ok a ∧ lookupKey n ps' = some (some a) := by
  induction l generalizing ps with
  | nil => cases hm
  | cons nc l ih =>
    obtain ⟨n', c'⟩ := nc
    rw [List.map_cons, List.nodup_cons] at hl
    rw [loadParts] at h
    rcases List.mem_cons.1 hm with e | hm
    · obtain ⟨rfl, rfl⟩ := Prod.mk.inj e
      rw [hp] at h
      simp only at h
      split at h
      · rename_i a ha
        refine ⟨a, ha, ?_⟩
        have := loadParts_other cfg l (assocSet ps n (some a)) (x := n) (.inl hl.1)
        rw [h] at this
        rw [this, lookupKey_assocSet, if_pos rfl]
      · cases (Prod.mk.inj h).2
    · split at h
      · split at h
        · exact ih hl.2 h hm
        · cases (Prod.mk.inj h).2
      · exact ih hl.2 h hm

/-- Why a load fails: a component that is described cannot be made. -/
theorem loadParts_error (cfg : InstrConfig) {l : List (Str × CompClass)} {ps ps' : List (Str × Option Attrs)} {e : PyErr}
    (h : loadParts cfg l ps = (ps', .error e)) :
    ∃ n c p, (n, c) ∈ l ∧ lookupKey n cfg = some (some p) ∧ c.make n p = .error e := by
  induction l generalizing ps with
  | nil => cases (Prod.mk.inj h).2
  | cons nc l ih =>
    obtain ⟨n, c⟩ := nc
    rw [loadParts] at h
    split at h
    · rename_i p hp
      split at h
      · obtain ⟨n', c', p', h1, h2⟩ := ih h
        exact ⟨n', c', p', List.mem_cons_of_mem _ h1, h2⟩
      · rename_i e' he
        obtain rfl := Except.error.inj (Prod.mk.inj h).2
        exact ⟨n, c, p, List.mem_cons_self, hp, he⟩
    · obtain ⟨n', c', p', h1, h2⟩ := ih h
      exact ⟨n', c', p', List.mem_cons_of_mem _ h1, h2⟩

theorem loadJson_ok {t t' : TasBase} {path : Str} {cfg : InstrConfig} (h : t.loadJson path (some cfg) = (t', .ok ())) :
    loadParts cfg components t.parts = (t'.parts, .ok ()) ∧ t'.jsonPath = some path := by
  unfold TasBase.loadJson at h
  simp only at h
  split at h
  · rename_i ps u hp
    obtain rfl := (Prod.mk.inj h).1
    exact ⟨hp, rfl⟩
  · cases (Prod.mk.inj h).2

theorem loadJson_error {t t' : TasBase} {path : Str} {cfg : InstrConfig} {e : PyErr}
    (h : t.loadJson path (some cfg) = (t', .error e)) :
    loadParts cfg components t.parts = (t'.parts, .error e) ∧ t'.jsonPath = t.jsonPath := by
  unfold TasBase.loadJson at h
  simp only at h
  split at h
  · cases (Prod.mk.inj h).2
  · rename_i ps e' hp
    obtain rfl := (Prod.mk.inj h).1
    obtain rfl := Except.error.inj (Prod.mk.inj h).2
    exact ⟨hp, rfl⟩

/-- **C83**: after a configuration has been loaded, every attribute of a component it describes has the value given there,
and the default value if none is given there. (The d-spacing and the name of a component: see the next theorems.) -/
theorem C83_attributes_partial {t t' : TasBase} {path : Str} {cfg : InstrConfig} (hd : Decoded cfg)
    (h : t.loadJson path (some cfg) = (t', .ok ())) {n : Str} {c : CompClass} (hm : (n, c) ∈ components) {p : Attrs}
    (hp : lookupKey n cfg = some (some p)) {x : Str} (h1 : x ≠ "component_name".toList) (h2 : x ≠ "d_spacing".toList) :
    attr t' n x = (lookupKey x p).or (lookupKey x c.defaults) ∧ t'.jsonPath = some path := by
  obtain ⟨hl, hj⟩ := loadJson_ok h
  obtain ⟨a, ha, hk⟩ := loadParts_made cfg names_nodup hl hm hp
  refine ⟨?_, hj⟩
  rw [attr, hk]
  exact make_lookup (finish_all _ hm) (hd _ _ hp) ha h1 h2

/-- **C83**: whatever happens, a component the configuration does not describe keeps all its attributes; so does a
spectrometer for which there is no configuration file. -/
theorem C83_untouched {t t' : TasBase} {path : Str} {file : Option InstrConfig} {r : Py Unit}
    (h : t.loadJson path file = (t', r)) {n : Str}
    (hn : n ∉ componentNames ∨ ∀ cfg, file = some cfg → ∀ p, lookupKey n cfg ≠ some (some p)) :
    lookupKey n t'.parts = lookupKey n t.parts ∧ (file = none → t' = t ∧ r = .ok ()) := by
  cases file with
  | none =>
    obtain ⟨rfl, rfl⟩ := Prod.mk.inj h
    exact ⟨rfl, fun _ => ⟨rfl, rfl⟩⟩
  | some cfg =>
    refine ⟨?_, fun h => nomatch h⟩
    have key := loadParts_other cfg components t.parts (x := n) (hn.imp id fun h => h cfg rfl)
    cases r with
    | ok u =>
      obtain ⟨hl, _⟩ := loadJson_ok h
      rw [hl] at key; exact key
    | error e =>
      obtain ⟨hl, _⟩ := loadJson_error h
      rw [hl] at key; exact key

/-- **C83**: the d-spacing of a crystal is the one of the table for its type, whatever the configuration says about it. -/
theorem C83_crystal {t t' : TasBase} {path : Str} {cfg : InstrConfig} (h : t.loadJson path (some cfg) = (t', .ok ()))
    {n : Str} (hn : n = "monochromator".toList ∨ n = "analyzer".toList) {p : Attrs} (hp : lookupKey n cfg = some (some p)) :
    ∃ s d, attr t' n "type".toList = some (.str s) ∧ lookupKey s monoAnaXtal = some d ∧
      attr t' n "d_spacing".toList = some (.num d) := by
  have hm : (n, monoAnaClass) ∈ components := by
    rcases hn with rfl | rfl <;> simp [components]
  obtain ⟨hl, _⟩ := loadJson_ok h
  obtain ⟨a, ha, hk⟩ := loadParts_made cfg names_nodup hl hm hp
  obtain ⟨b, hb, hf⟩ := py_bind_eq_ok.1 ha
  obtain ⟨d, hd, e⟩ := map_eq_ok.1 hf
  have hty : lookupKey "type".toList a = lookupKey "type".toList b := mono_finish _ _ _ hf _ (by decide) (by decide)
  have hds : lookupKey "d_spacing".toList a = some (.num d) := by rw [← e, lookupKey_assocSet, if_pos rfl]
  simp only [attr, hk]
  unfold xtalSpacing at hd
  split at hd
  · rename_i s hs
    exact ⟨s, d, by rw [hty, hs], need_eq_ok.1 hd, hds⟩
  all_goals cases hd

/-- A component that has changed was made of what the configuration describes. -/
theorem loadParts_changed (cfg : InstrConfig) (l : List (Str × CompClass)) (ps : List (Str × Option Attrs)) (n : Str) :
    lookupKey n (loadParts cfg l ps).1 = lookupKey n ps ∨
      ∃ c p a, (n, c) ∈ l ∧ lookupKey n cfg = some (some p) ∧ c.make n p = .ok a := by
  induction l generalizing ps with
  | nil => exact .inl rfl
  | cons nc l ih =>
    obtain ⟨n', c'⟩ := nc
    have up : ∀ {ps' : List (Str × Option Attrs)}, lookupKey n ps' = lookupKey n ps →
        lookupKey n (loadParts cfg l ps').1 = lookupKey n ps ∨
          ∃ c p a, (n, c) ∈ (n', c') :: l ∧ lookupKey n cfg = some (some p) ∧ c.make n p = .ok a := by
      intro ps' h
      rcases ih ps' with h' | ⟨c, p, a, h1, h2⟩
      · exact .inl (h'.trans h)
      · exact .inr ⟨c, p, a, List.mem_cons_of_mem _ h1, h2⟩
    rw [loadParts]
    split
    · rename_i p hp
      split
      · rename_i a ha
        by_cases hn : n = n'
        · subst hn
          exact .inr ⟨c', p, a, List.mem_cons_self, hp, ha⟩
        · exact up (by rw [lookupKey_assocSet, if_neg hn])
      · exact .inl rfl
    · exact up rfl

/-- A crystal is only made of a type in the table. -/
theorem make_crystal {n s : Str} {p a : Attrs} (hd : (p.map Prod.fst).Nodup) (hs : lookupKey "type".toList p = some (.str s))
    (h : monoAnaClass.make n p = .ok a) : (lookupKey s monoAnaXtal).isSome := by
  obtain ⟨b, hb, h⟩ := py_bind_eq_ok.1 h
  have ht := load_lookup hd hb "type".toList
  rw [if_neg (by decide), hs] at ht
  change Except.map _ (xtalSpacing (lookupKey "type".toList b)) = _ at h
  rw [ht] at h
  change Except.map _ (need (lookupKey s monoAnaXtal) .keyError) = _ at h
  cases hx : lookupKey s monoAnaXtal with
  | none => rw [hx] at h; cases h
  | some d => rfl

/-- **C83**: a crystal that is not in the table is refused; the component stays as it was, and the path is not recorded. -/
theorem C83_unknown_crystal {t : TasBase} {path : Str} {cfg : InstrConfig} (hd : Decoded cfg)
    {n : Str} (hn : n = "monochromator".toList ∨ n = "analyzer".toList) {p : Attrs} (hp : lookupKey n cfg = some (some p))
    {s : Str} (hs : lookupKey "type".toList p = some (.str s)) (hx : lookupKey s monoAnaXtal = none) :
    ∃ t' e, t.loadJson path (some cfg) = (t', .error e) ∧ t'.jsonPath = t.jsonPath ∧
      lookupKey n t'.parts = lookupKey n t.parts := by
  rcases hr : t.loadJson path (some cfg) with ⟨t', r⟩
  cases r with
  | error e =>
    refine ⟨t', e, rfl, (loadJson_error hr).2, ?_⟩
    rcases loadParts_changed cfg components t.parts n with h | ⟨c, p', a, h1, h2, h3⟩
    · rw [(loadJson_error hr).1] at h; exact h
    · obtain rfl : p = p' := by rw [hp] at h2; exact Option.some.inj (Option.some.inj h2)
      obtain rfl : c = monoAnaClass := by
        simp only [components, List.mem_cons, List.not_mem_nil, or_false, Prod.mk.injEq] at h1
        rcases hn with rfl | rfl
        all_goals
          rcases h1 with h | h | h | h | h | h | h | h | h <;>
            first | exact h.2 | exact absurd h.1 (by decide)
      have := make_crystal (hd _ _ hp) hs h3
      rw [hx] at this; cases this
  | ok u =>
    obtain ⟨s', d, h1, h2, _⟩ := C83_crystal hr hn hp
    have hm : (n, monoAnaClass) ∈ components := by
      rcases hn with rfl | rfl <;> simp [components]
    have := (C83_attributes_partial hd hr hm hp (x := "type".toList) (by decide) (by decide)).1
    rw [hs, h1] at this
    cases this
    rw [hx] at h2; cases h2

/-- What an error means: a component described has a parameter with the name of a property, or a crystal is unknown. -/
theorem C83_refused {t t' : TasBase} {path : Str} {cfg : InstrConfig} {e : PyErr} (hd : Decoded cfg)
    (h : t.loadJson path (some cfg) = (t', .error e)) :
    ∃ n c p, (n, c) ∈ components ∧ lookupKey n cfg = some (some p) ∧
      ((e = .attributeError ∧ ∃ k ∈ p.map Prod.fst, k ∈ c.properties) ∨
       (c.defaults = monoAnaClass.defaults ∧ ∀ s, (lookupKey "type".toList p).or (some (.str "PG002".toList)) = some (.str s) →
          lookupKey s monoAnaXtal = none ∧ e = .keyError)) := by
  obtain ⟨n, c, p, hm, hp, he⟩ := loadParts_error cfg (loadJson_error h).1
  refine ⟨n, c, p, hm, hp, ?_⟩
  by_cases hk : ∃ k ∈ p.map Prod.fst, k ∈ c.properties
  · left
    obtain ⟨k, hk1, hk2⟩ := hk
    rw [CompClass.make, CompClass.load, foldl_set_error hk1 hk2] at he
    exact ⟨(Except.error.inj he).symm, k, hk1, hk2⟩
  · right
    have hok : ∀ k ∈ p.map Prod.fst, k ∉ c.properties := fun k h1 h2 => hk ⟨k, h1, h2⟩
    have hl : c.load n p = .ok _ := foldl_set_ok hok _
    rw [CompClass.make, hl, py_bind_ok] at he
    have hmono : c = monoAnaClass := by
      simp only [components, List.mem_cons, List.not_mem_nil, or_false] at hm
      rcases hm with h | h | h | h | h | h | h | h | h <;> obtain ⟨_, rfl⟩ := Prod.mk.inj h <;>
        first | rfl | exact (nomatch he)
    subst hmono
    refine ⟨rfl, fun s hs => ?_⟩
    have ht := load_lookup (hd _ _ hp) hl "type".toList
    rw [if_neg (by decide), show lookupKey "type".toList monoAnaClass.defaults = some (.str "PG002".toList) from rfl, hs] at ht
    change Except.map _ (xtalSpacing (lookupKey "type".toList _)) = _ at he
    rw [ht] at he
    change Except.map _ (need (lookupKey s monoAnaXtal) .keyError) = _ at he
    cases hx : lookupKey s monoAnaXtal with
    | none => rw [hx] at he; exact ⟨rfl, (Except.error.inj he).symm⟩
    | some d => rw [hx] at he; cases he

/-- **C83 fails**: a configuration that is refused is not without effect: its source is loaded whatever happens later. -/
theorem C83_not_atomic {t t' : TasBase} {path : Str} {cfg : InstrConfig} {r : Py Unit}
    (h : t.loadJson path (some cfg) = (t', r)) {p : Attrs} (hp : Describes cfg "source".toList sourceClass.properties p)
    {x : Str} (h1 : x ≠ "component_name".toList) :
    attr t' "source".toList x = (lookupKey x p).or (lookupKey x sourceClass.defaults) := by
  obtain ⟨hp1, hp2, hp3⟩ := hp
  obtain ⟨a, hl⟩ : ∃ a, sourceClass.load "source".toList p = .ok a := ⟨_, foldl_set_ok hp3 _⟩
  have hmk : sourceClass.make "source".toList p = .ok a := by rw [CompClass.make, hl, py_bind_ok]; rfl
  have hparts : (loadParts cfg components t.parts).1 = t'.parts := by
    cases r with
    | ok u => rw [(loadJson_ok h).1]
    | error e => rw [(loadJson_error h).1]
  have hk : lookupKey "source".toList t'.parts = some (some a) := by
    rw [← hparts, components, loadParts]
    rw [hp1]
    simp only [hmk]
    rw [loadParts_other (x := "source".toList) _ _ _ (.inl (by decide)), lookupKey_assocSet, if_pos rfl]
  rw [attr, hk]
  show lookupKey x a = _
  rw [load_lookup hp2 hl, if_neg h1]

/-! ## `update` -/

/-- **C83**: `update` changes the attribute it names and nothing else; a name that is not an attribute changes nothing. -/
theorem C83_update (a : Attrs) (k x : Str) (v : Cfg) :
    ((lookupKey k a).isSome → lookupKey x (updateAttr a k v) = if x = k then some v else lookupKey x a) ∧
    (lookupKey k a = none → updateAttr a k v = a) := by
  constructor
  · intro h; rw [updateAttr, if_pos h, lookupKey_assocSet]
  · intro h; rw [updateAttr, if_neg (by rw [h]; decide)]

/-- **C83 fails**: choosing another crystal with `update` does not change the d-spacing. -/
theorem C83_update_type (a : Attrs) (v : Cfg) :
    lookupKey "d_spacing".toList (updateAttr a "type".toList v) = lookupKey "d_spacing".toList a := by
  unfold updateAttr
  split
  · rw [lookupKey_assocSet, if_neg (by decide)]
  · rfl

/-! ## Concrete cases -/

namespace Demo

/-- A spectrometer with a copper monochromator; the d-spacing given is not that of copper. -/
noncomputable def copperConfig : InstrConfig :=
  [("source".toList, some [("shape".toList, .str "circular".toList), ("width".toList, .num 15)]),
   ("monochromator".toList, some [("type".toList, .str "Cu111".toList), ("d_spacing".toList, .num 3), ("sense".toList, .str "+".toList)]),
   ("monitor".toList, none), ("goniometer".toList, some [("sense".toList, .str "+".toList)])]

theorem copper_decoded : Decoded copperConfig := by
  intro comp p h
  have : (comp, some p) ∈ copperConfig := lookupKey_some_mem h
  simp only [copperConfig, List.mem_cons, List.not_mem_nil, or_false, Prod.mk.injEq] at this
  rcases this with ⟨_, h⟩ | ⟨_, h⟩ | ⟨_, h⟩ | ⟨_, h⟩
  · rw [Option.some.inj h]; simp only [List.map_cons, List.map_nil]; decide
  · rw [Option.some.inj h]; simp only [List.map_cons, List.map_nil]; decide
  · cases h
  · rw [Option.some.inj h]; simp only [List.map_cons, List.map_nil]; decide

theorem copper_loads (t : TasBase) (path : Str) : ∃ t', t.loadJson path (some copperConfig) = (t', .ok ()) := by
  rcases hr : t.loadJson path (some copperConfig) with ⟨t', r⟩
  cases r with
  | ok u => exact ⟨t', rfl⟩
  | error e =>
    exfalso
    obtain ⟨n, c, p, hm, hp, h⟩ := C83_refused copper_decoded hr
    have hmem : (n, some p) ∈ copperConfig := lookupKey_some_mem hp
    simp only [components, List.mem_cons, List.not_mem_nil, or_false, Prod.mk.injEq] at hm
    simp only [copperConfig, List.mem_cons, List.not_mem_nil, or_false, Prod.mk.injEq] at hmem
    rcases hmem with ⟨rfl, hq⟩ | ⟨rfl, hq⟩ | ⟨rfl, hq⟩ | ⟨rfl, hq⟩
    · obtain rfl := Option.some.inj hq
      have hc : c = sourceClass := by
        rcases hm with h | h | h | h | h | h | h | h | h <;> first | exact h.2 | exact absurd h.1 (by decide)
      subst hc
      rcases h with ⟨_, k, hk, hk'⟩ | ⟨h, _⟩
      · exact (show ∀ k ∈ ["shape".toList, "width".toList], k ∉ ["_width".toList, "_height".toList] by decide) k hk hk'
      · exact absurd (congrArg (fun a => a.map Prod.fst) h) (by simp only [sourceClass, plainClass, monoAnaClass, List.map_cons, List.map_nil]; decide)
    · obtain rfl := Option.some.inj hq
      have hc : c = monoAnaClass := by
        rcases hm with h | h | h | h | h | h | h | h | h <;> first | exact h.2 | exact absurd h.1 (by decide)
      subst hc
      rcases h with ⟨_, k, hk, hk'⟩ | ⟨_, h⟩
      · exact (show ∀ k ∈ ["type".toList, "d_spacing".toList, "sense".toList], k ∉ ["_sense".toList, "_mosaic_h".toList,
          "_mosaic_v".toList, "_width".toList, "_height".toList, "_depth".toList] by decide) k hk hk'
      · have := (h "Cu111".toList rfl).1
        cases this
    · cases hq
    · obtain rfl := Option.some.inj hq
      have hc : c = goniClass := by
        rcases hm with h | h | h | h | h | h | h | h | h <;> first | exact h.2 | exact absurd h.1 (by decide)
      subst hc
      rcases h with ⟨_, k, hk, hk'⟩ | ⟨h, _⟩
      · exact (show ∀ k ∈ ["sense".toList], k ∉ ["stacking_order".toList, "mode".toList, "motor_senses".toList,
          "_sense".toList] by decide) k hk hk'
      · exact absurd (congrArg (fun a => a.map Prod.fst) h) (by simp only [goniClass, monoAnaClass, List.map_cons, List.map_nil]; decide)

/-- The copper monochromator is loaded with the d-spacing of copper and the default mosaic; the analyser is not touched. -/
example (path : Str) : ∃ t', TasBase.new.loadJson path (some copperConfig) = (t', .ok ()) ∧
    attr t' "monochromator".toList "sense".toList = some (.str "+".toList) ∧
    attr t' "monochromator".toList "mosaic_h".toList = some .null ∧
    attr t' "monochromator".toList "d_spacing".toList = some (.num 2.08717) ∧
    attr t' "source".toList "name".toList = some (.str "HFIR".toList) ∧
    lookupKey "monitor".toList t'.parts = some none ∧ lookupKey "analyzer".toList t'.parts = none := by
  obtain ⟨t', h⟩ := copper_loads TasBase.new path
  have hm : ("monochromator".toList, monoAnaClass) ∈ components := by simp [components]
  have hs : ("source".toList, sourceClass) ∈ components := by simp [components]
  refine ⟨t', h, ?_, ?_, ?_, ?_, ?_, ?_⟩
  · exact (C83_attributes_partial copper_decoded h hm rfl (by decide) (by decide)).1
  · exact (C83_attributes_partial copper_decoded h hm rfl (by decide) (by decide)).1
  · obtain ⟨s, d, h1, h2, h3⟩ := C83_crystal h (.inl rfl) rfl
    have h4 := (C83_attributes_partial copper_decoded h hm rfl (x := "type".toList) (by decide) (by decide)).1
    rw [h1] at h4
    obtain rfl : s = "Cu111".toList := Cfg.str.inj (Option.some.inj h4)
    rw [h3, ← Option.some.inj h2]
  · exact (C83_attributes_partial copper_decoded h hs rfl (by decide) (by decide)).1
  · refine (C83_untouched h (n := "monitor".toList) (.inr fun cfg e p hp => ?_)).1
    rw [← Option.some.inj e] at hp
    cases hp
  · refine (C83_untouched h (n := "analyzer".toList) (.inr fun cfg e p hp => ?_)).1
    rw [← Option.some.inj e] at hp
    cases hp

/-- Silicon is not in the table: the configuration is refused, but the source is that of the configuration. -/
example (path : Str) : ∃ t' e, TasBase.new.loadJson path
      (some [("source".toList, some [("width".toList, .num 15)]), ("monochromator".toList, some [("type".toList, .str "Si111".toList)])])
      = (t', .error e) ∧ attr t' "source".toList "width".toList = some (.num 15) ∧ t'.jsonPath = none := by
  have hd : Decoded [("source".toList, some [("width".toList, .num 15)]),
      ("monochromator".toList, some [("type".toList, .str "Si111".toList)])] := by
    intro comp p h
    have := lookupKey_some_mem h
    simp only [List.mem_cons, List.not_mem_nil, or_false, Prod.mk.injEq] at this
    rcases this with ⟨_, h⟩ | ⟨_, h⟩ <;> · rw [Option.some.inj h]; simp
  obtain ⟨t', e, h, hj, _⟩ := C83_unknown_crystal (t := TasBase.new) (path := path) hd (n := "monochromator".toList) (.inl rfl) rfl
    (s := "Si111".toList) rfl rfl
  refine ⟨t', e, h, ?_, hj⟩
  exact C83_not_atomic h ⟨rfl, by simp, by decide⟩ (by decide)

end Demo

end Tavi
