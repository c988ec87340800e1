import Verif.Props.BuilderJson
import Verif.Props.BuilderTidy

/-!
# What configuration files add to an entry can be written
-/

namespace Tavi

namespace Spec

/-- A value that can be written to a file and read from it: texts are not given as lists, and no numbers for a word. -/
def StorableValue (m : ConfMeaning) (p : Str) (v : JVal) : Prop :=
  (∀ l, v = .strs l → p ∈ m.quantities) ∧ (p ∈ m.words → ∀ l, v ≠ .nums l)

/-- Files whose values can all be written. -/
structure WritableConfig (inst : Option (List (Str × JSec))) (samp : Option (List (Str × JVal))) : Prop where
  parts : ∀ x ∈ instrumentParts, ∀ p v, (p, v) ∈ sectionOf inst x.2.1 → StorableValue x.2.2 p v
  monitor : ∀ p v, (p, v) ∈ sectionOf inst "monitor".toList → StorableValue (onlyMeaning "shape".toList) p v
  sample : ∀ p v, (p, v) ∈ samp.getD [] → StorableValue sampleMeaning p v

end Spec

open Spec

/-- A member that can be stored. -/
def Field.Stored (f : Field) : Prop := ∀ ds, f.2 = .ok (some ds) → Plain f.1 ∧ ∃ x, Ds ds x ∧ NotList x

theorem neat_more {fs : List Field} {g g' : Dict} (hg : Neat g) (h : addMembers fs g = .ok g') (hs : ∀ f ∈ fs, Field.Stored f) :
    Neat g' := by
  refine ⟨tidy_of_items (addMembers_nodup h hg.1.nodup) fun k v hm => ?_, fun k f l hm hk hf => ?_⟩
  · rcases addMembers_items h k v hm with hm | ⟨ds, rfl, hds⟩
    · exact items_tidy hg.1 hm
    · obtain ⟨hp, x, hx, _⟩ := hs _ hds ds rfl
      exact .inr ⟨hp, ds, rfl, .inr ⟨x, hx⟩⟩
  · rcases addMembers_items h k _ hm with hm | ⟨ds, e, hds⟩
    · exact hg.2 k f l hm hk hf
    · obtain ⟨_, x, hx, hn⟩ := hs _ hds ds rfl
      obtain rfl : f = ds := by injection e
      rw [ds_get hx] at hf
      injection hf with hf; injection hf with hf
      exact absurd hf (hn l)

/-- The attributes that go with a parameter differ from each other. -/
def KindNames : JKind → Prop
  | .float a => AttrNames a
  | .angle a => AttrNames a
  | _ => True

theorem boxKind_names (p : Str) : KindNames (boxKind p) := by
  unfold boxKind
  split_ifs
  · trivial
  · show AttrNames _; decide
  · trivial

theorem crystalKind_names {k : JKind} (hk : KindNames k) (p : Str) : KindNames (crystalKind k p) := by
  unfold crystalKind
  split_ifs
  · trivial
  · show AttrNames _; decide
  · exact hk
  · trivial
  · show AttrNames _; decide
  · trivial

theorem onlyKind_names (q p : Str) : KindNames (onlyKind q p) := by
  unfold onlyKind
  split_ifs <;> trivial

theorem sampleKind_names (p : Str) : KindNames (sampleKind p) := by
  unfold sampleKind
  split_ifs
  · trivial
  · trivial
  · show AttrNames _; decide
  · show AttrNames _; decide
  · trivial
  · trivial

theorem float_ds {x : Leaf} {a : List (Str × Str)} (ha : AttrNames a) (hx : (∃ r, x = .num r) ∨ ∃ l, x = .arr l) :
    Ds (nxDs x (("type".toList, "NX_FLOAT".toList) :: a)) x ∧ NotList x := by
  rcases hx with ⟨r, rfl⟩ | ⟨l, rfl⟩
  · exact ⟨ds_nxDs ha (by rw [formatAs, if_neg (by decide), if_pos rfl]; rfl), fun l h => by cases h⟩
  · exact ⟨ds_nxDs ha (by rw [formatAs, if_neg (by decide), if_pos rfl]; rfl), fun l h => by cases h⟩

theorem angle_ds {x : Leaf} {a : List (Str × Str)} (ha : AttrNames a) (hx : NotList x) :
    Ds (nxDs x (("type".toList, "NX_ANGLE".toList) :: a)) x := by
  refine ds_nxDs ha ?_
  rw [formatAs, if_neg (by decide), if_neg (by decide), if_neg (by decide)]
  cases x with
  | strs l => exact absurd rfl (hx l)
  | _ => rfl

theorem raw_ds {x : Leaf} (hx : NotList x) : Ds (nxDs x []) x := by
  refine ⟨?_, .inr ⟨_, .nil, .inl rfl⟩⟩
  cases x with
  | strs l => exact absurd rfl (hx l)
  | _ => rfl

theorem floatLeaf_number {v : JVal} {x : Leaf} (h : floatLeaf v = .ok x) : (∃ r, x = .num r) ∨ ∃ l, x = .arr l := by
  cases v with
  | bool b => exact .inl ⟨_, (Except.ok.inj h).symm⟩
  | num y t => exact .inl ⟨_, (Except.ok.inj h).symm⟩
  | nums l => exact .inr ⟨_, (Except.ok.inj h).symm⟩
  | str s =>
    obtain ⟨r, _, rfl⟩ := map_eq_ok.1 h
    cases r with
    | num y => exact .inl ⟨_, rfl⟩
    | arr l => exact .inr ⟨_, rfl⟩
  | strs l =>
    obtain ⟨r, _, rfl⟩ := map_eq_ok.1 h
    exact .inr ⟨_, rfl⟩
  | null => exact absurd h (by simp [floatLeaf])
  | other => exact absurd h (by simp [floatLeaf])

theorem matrixLeaf_number {v : JVal} {x : Leaf} (h : matrixLeaf v = .ok x) : ∃ l, x = .arr l := by
  cases v with
  | nums l =>
    rw [matrixLeaf] at h
    split_ifs at h
    exact ⟨_, (Except.ok.inj h).symm⟩
  | strs l =>
    rw [matrixLeaf] at h
    split_ifs at h
    obtain ⟨r, _, rfl⟩ := map_eq_ok.1 h
    exact ⟨_, rfl⟩
  | _ => exact absurd h (by simp [matrixLeaf])

theorem rawLeaf_notList {v : JVal} {x : Leaf} (h : rawLeaf v = .ok x) (hv : ∀ l, v ≠ .strs l) : NotList x := by
  intro l e
  subst e
  cases v with
  | strs l => exact hv l rfl
  | _ => simp [rawLeaf] at h

theorem charLeaf_text {v : JVal} {x : Leaf} (h : charLeaf v = .ok x) (hv : ∀ l, v ≠ .strs l) (hn : ∀ l, v ≠ .nums l) :
    ∃ s, x = .str s := by
  cases v with
  | strs l => exact absurd rfl (hv l)
  | nums l => exact absurd rfl (hn l)
  | bool b => cases b <;> exact ⟨_, (Except.ok.inj h).symm⟩
  | num y t => exact ⟨_, (Except.ok.inj h).symm⟩
  | str s => exact ⟨_, (Except.ok.inj h).symm⟩
  | null => exact absurd h (by simp [charLeaf])
  | other => exact absurd h (by simp [charLeaf])

/-- What is made of a parameter can be stored. -/
theorem jsonDs_ds {m : ConfMeaning} {p : Str} {k : JKind} (hk : KindFits m p k) (hn : KindNames k) {v : JVal} (hv : StorableValue m p v)
    {ds : Dict} (h : jsonDs k v = .ok (some ds)) : ∃ x, Ds ds x ∧ NotList x := by
  have key : ∀ {y : Py Leaf} {a : List (Str × Str)}, y.map (fun x => some (nxDs x a)) = .ok (some ds) →
      ∃ x, y = .ok x ∧ ds = nxDs x a := by
    intro y a hy
    obtain ⟨x, hx, hd⟩ := map_eq_ok.1 hy
    exact ⟨x, hx, (Option.some.inj hd).symm⟩
  have key2 : ∀ {y : Py Leaf} {a : List (Str × Str)}, (if v.empty = true then Except.ok none else y.map fun x => some (nxDs x a)) =
      (Except.ok (some ds) : Py (Option Dict)) → ∃ x, y = .ok x ∧ ds = nxDs x a := by
    intro y a hy
    split_ifs at hy
    · exact absurd hy (by simp)
    · exact key hy
  cases k with
  | skip => exact absurd h (by simp [jsonDs])
  | matrix =>
    obtain ⟨x, hx, rfl⟩ := key h
    exact ⟨x, float_ds (by decide) (.inr (matrixLeaf_number hx))⟩
  | float a =>
    obtain ⟨x, hx, rfl⟩ := key2 h
    exact ⟨x, float_ds hn (floatLeaf_number hx)⟩
  | angle a =>
    obtain ⟨x, hx, rfl⟩ := key2 h
    have := rawLeaf_notList hx fun l e => hk.2.2.1 (hv.1 l e)
    exact ⟨x, angle_ds hn this, this⟩
  | raw =>
    obtain ⟨x, hx, rfl⟩ := key2 h
    have := rawLeaf_notList hx fun l e => hk.2.2.1 (hv.1 l e)
    exact ⟨x, raw_ds this, this⟩
  | char =>
    obtain ⟨x, hx, rfl⟩ := key2 h
    obtain ⟨s, rfl⟩ := charLeaf_text hx (fun l e => hk.2.2.1 (hv.1 l e)) (hv.2 hk.2.1)
    exact ⟨_, ds_nxDs (by decide) (by rw [formatAs, if_pos rfl]; rfl), fun l h => by cases h⟩

/-- Where something is made of a parameter, it is taken and says something. -/
theorem jsonDs_said {m : ConfMeaning} {p : Str} {k : JKind} (hk : KindFits m p k) {v : JVal} {ds : Dict}
    (h : jsonDs k v = .ok (some ds)) : m.taken p ∧ ¬ SaysNothing v := by
  have he : ∀ {y : Py (Option Dict)}, (if v.empty = true then Except.ok none else y) = (Except.ok (some ds) : Py (Option Dict)) →
      ¬ SaysNothing v := by
    intro y hy hv
    rw [if_pos ((jval_empty_iff v).2 hv)] at hy
    exact absurd hy (by simp)
  cases k with
  | skip => exact absurd h (by simp [jsonDs])
  | matrix =>
    refine ⟨hk.1, ?_⟩
    rintro (rfl | rfl)
    · exact absurd h (by simp [jsonDs, matrixLeaf, Except.map])
    · exact absurd h (by simp [jsonDs, matrixLeaf, Except.map])
  | float a => exact ⟨hk.1, he h⟩
  | angle a => exact ⟨hk.1, he h⟩
  | raw => exact ⟨hk.1, he h⟩
  | char => exact ⟨hk.1, he h⟩

/-- The members made of a section. -/
theorem secFields_stored {m : ConfMeaning} {kind : Str → JKind} (hm : m.name = id) (hk : ∀ p, KindFits m p (kind p))
    (hkn : ∀ p, KindNames (kind p)) {c : NxConfig} {name : Str} (hw : ∀ p v, (p, v) ∈ sectionOf c.inst name → StorableValue m p v)
    (hp : ∀ p v, (p, v) ∈ sectionOf c.inst name → m.taken p → ¬ SaysNothing v → Plain (m.name p)) :
    ∀ f ∈ secFields kind (c.sec name), Field.Stored f := by
  intro f hf ds hds
  cases hs : c.sec name with
  | null => rw [hs] at hf; exact absurd hf List.not_mem_nil
  | other =>
    rw [hs] at hf
    obtain rfl := List.mem_singleton.1 hf
    exact absurd hds (by simp)
  | dict l =>
    rw [hs] at hf
    obtain ⟨kv, hkv, rfl⟩ := List.mem_map.1 hf
    have hsec : sectionOf c.inst name = l := by
      unfold NxConfig.sec at hs
      unfold sectionOf
      cases hi : c.inst with
      | none => rw [hi] at hs; exact absurd hs (by simp)
      | some ss =>
        rw [hi] at hs
        cases hl : lookupKey name ss with
        | none => simp [hl] at hs
        | some s => simp [hl] at hs; simp [hl, hs]
    rw [hsec] at hw hp
    obtain ⟨h1, h2⟩ := jsonDs_said (hk kv.1) hds
    have := hp kv.1 kv.2 hkv h1 h2
    rw [hm] at this
    exact ⟨this, jsonDs_ds (hk kv.1) (hkn kv.1) (hw kv.1 kv.2 hkv) hds⟩

/-- The members made of the file of the sample. -/
theorem sampleJson_stored {o : Option (List (Str × JVal))} (hw : ∀ p v, (p, v) ∈ o.getD [] → StorableValue sampleMeaning p v)
    (hp : ∀ p v, (p, v) ∈ o.getD [] → sampleMeaning.taken p → ¬ SaysNothing v → Plain (sampleMeaning.name p)) :
    ∀ f ∈ sampleJson o, Field.Stored f := by
  intro f hf ds hds
  cases o with
  | none => exact absurd hf List.not_mem_nil
  | some l =>
    obtain ⟨kv, hkv, rfl⟩ := List.mem_map.1 hf
    obtain ⟨h1, h2⟩ := jsonDs_said (sample_fits kv.1) hds
    exact ⟨hp kv.1 kv.2 hkv h1 h2, jsonDs_ds (sample_fits kv.1) (sampleKind_names kv.1) (hw kv.1 kv.2 hkv) hds⟩

theorem divField_stored {key : Str} (hkey : Plain key) (pre : Str) (l : List (Str × JVal)) :
    ∀ f ∈ divField key pre l, Field.Stored f := by
  intro f hf ds hds
  unfold divField at hf
  split at hf
  · exact absurd hf List.not_mem_nil
  · obtain rfl := List.mem_singleton.1 hf
    obtain ⟨x, hx, hd⟩ := map_eq_ok.1 hds
    obtain rfl := (Option.some.inj hd)
    refine ⟨hkey, x, ?_⟩
    unfold listLeaf at hx
    split at hx
    · obtain rfl := Except.ok.inj hx
      have hn : NotList (.arr (List.map some ‹List ℝ›)) := fun l h => by cases h
      exact ⟨angle_ds (by decide) hn, hn⟩
    · exact absurd hx (by simp)

theorem collJson_stored (s : JSec) : ∀ f ∈ collJson s, Field.Stored f := by
  cases s with
  | null => exact fun f hf => absurd hf List.not_mem_nil
  | dict l => exact forall_mem_append' (divField_stored (by decide) _ _) (divField_stored (by decide) _ _)
  | other =>
    intro f hf ds hds
    obtain rfl := List.mem_singleton.1 hf
    exact absurd hds (by simp)

end Tavi
