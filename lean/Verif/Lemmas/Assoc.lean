import Verif.Model.Str

/-!
# Python dicts as association lists
-/

namespace Tavi

theorem lookupKey_assocSet {β : Type} (l : List (Str × β)) (k x : Str) (v : β) :
    lookupKey x (assocSet l k v) = if x = k then some v else lookupKey x l := by
  induction l with
  | nil =>
    show (if k = x then some v else none) = if x = k then some v else none
    simp only [eq_comm]
  | cons kv l ih =>
    obtain ⟨k', v'⟩ := kv
    rw [assocSet]
    by_cases h' : k' = k
    · rw [if_pos h', lookupKey, lookupKey, h']
      by_cases h : x = k
      · rw [if_pos h, if_pos h.symm]
      · rw [if_neg h, if_neg (fun h' => h h'.symm), if_neg (fun h' => h h'.symm)]
    · rw [if_neg h', lookupKey, lookupKey, ih]
      by_cases h : k' = x
      · rw [if_pos h, if_pos h, if_neg (by rintro rfl; exact h' h)]
      · rw [if_neg h, if_neg h]

theorem keys_assocSet {β : Type} (l : List (Str × β)) (k : Str) (v : β) :
    (assocSet l k v).map Prod.fst = if k ∈ l.map Prod.fst then l.map Prod.fst else l.map Prod.fst ++ [k] := by
  induction l with
  | nil => rfl
  | cons kv l ih =>
    obtain ⟨k', v'⟩ := kv
    rw [assocSet]
    by_cases h : k' = k
    · subst h; simp
    · rw [if_neg h, List.map_cons, ih]
      simp only [List.map_cons, List.mem_cons, Ne.symm (show k' ≠ k from h), false_or]
      split <;> simp

theorem nodup_assocSet {β : Type} {l : List (Str × β)} (h : (l.map Prod.fst).Nodup) (k : Str) (v : β) :
    ((assocSet l k v).map Prod.fst).Nodup := by
  rw [keys_assocSet]
  split
  · exact h
  · rename_i hk
    rw [List.nodup_append]
    exact ⟨h, by simp, by intro a ha b hb; rintro rfl; simp at hb; subst hb; exact hk ha⟩

theorem lookupKey_eq_none {β : Type} (l : List (Str × β)) (k : Str) : lookupKey k l = none ↔ k ∉ l.map Prod.fst := by
  induction l with
  | nil => simp [lookupKey]
  | cons kv l ih =>
    obtain ⟨k', v'⟩ := kv
    rw [lookupKey]
    by_cases h : k' = k
    · simp [h]
    · rw [if_neg h, ih]; simp [Ne.symm (show k' ≠ k from h)]

theorem lookupKey_mem {β : Type} {l : List (Str × β)} (h : (l.map Prod.fst).Nodup) {k : Str} {v : β} :
    lookupKey k l = some v ↔ (k, v) ∈ l := by
  induction l with
  | nil => simp [lookupKey]
  | cons kv l ih =>
    obtain ⟨k', v'⟩ := kv
    rw [List.map_cons, List.nodup_cons] at h
    rw [lookupKey, List.mem_cons]
    by_cases hk : k' = k
    · subst hk
      rw [if_pos rfl]
      constructor
      · intro h'; left; rw [Option.some.inj h']
      · rintro (h' | h')
        · rw [(Prod.mk.inj h').2]
        · exact absurd (List.mem_map.2 ⟨_, h', rfl⟩) h.1
    · rw [if_neg hk, ih h.2]
      constructor
      · exact Or.inr
      · rintro (h' | h')
        · exact absurd (Prod.mk.inj h').1.symm hk
        · exact h'

theorem lookupKey_assocUpdate {β : Type} (d : List (Str × β)) {e : List (Str × β)} (h : (e.map Prod.fst).Nodup)
    (x : Str) : lookupKey x (assocUpdate d e) = (lookupKey x e).or (lookupKey x d) := by
  induction e generalizing d with
  | nil => rfl
  | cons kv e ih =>
    obtain ⟨k, v⟩ := kv
    rw [List.map_cons, List.nodup_cons] at h
    rw [assocUpdate, List.foldl_cons]
    show lookupKey x (assocUpdate _ e) = _
    rw [ih _ h.2, lookupKey_assocSet, lookupKey]
    by_cases hx : k = x
    · subst hx
      rw [if_pos rfl, if_pos rfl, (lookupKey_eq_none e k).2 h.1]; rfl
    · rw [if_neg hx, if_neg (fun h' => hx h'.symm)]

end Tavi
