import Verif.Props.DataNames

/-!
# C76, continued: only datasets as long as the scan are listed, whatever the entry
-/

namespace Tavi

/-- The group has a dataset of this name with `n` values, texts or numbers. -/
def Spec.HasSized (g : Dict) (n : ℕ) (k : Str) : Prop :=
  ∃ e, (k, Val.dict e) ∈ Spec.items g ∧ ∃ v, e.get? kDataset = some v ∧
    ((∃ l : List Str, v = .leaf (.strs l) ∧ l.length = n) ∨ ∃ l, v = .leaf (.arr l) ∧ l.length = n)

theorem sizedArray_inv {L : List Str} {n : ℕ} {k : Str} {v : Val} (h : sizedArray L n k v = true) :
    (∃ l : List Str, v = .leaf (.strs l) ∧ l.length = n) ∨ ∃ l, v = .leaf (.arr l) ∧ l.length = n := by
  unfold sizedArray at h
  split at h
  · exact .inl ⟨_, rfl, (of_decide_eq_true h).2⟩
  · exact .inr ⟨_, rfl, (of_decide_eq_true h).2⟩
  · cases h

theorem namesIn_sized {L : List Str} {n : ℕ} {d : Dict} {l : List Str} (h : namesIn L n d = .ok l) {k : Str} (hk : k ∈ l) :
    Spec.HasSized d n k := by
  obtain ⟨v, hv, hi⟩ := (namesIn_mem h k).1 hk
  rw [nameItem] at hi
  obtain ⟨b, hb, hi⟩ := py_bind_eq_ok.1 hi
  split at hi
  · obtain ⟨ds, hds, hi⟩ := py_bind_eq_ok.1 hi
    cases v with
    | leaf x => cases hds
    | dict g =>
      rw [hds, py_bind_ok] at hi
      exact ⟨_, hv, ds, need_eq_ok.1 hds, sizedArray_inv (Except.ok.inj hi)⟩
  · cases hi

/-- **C76**: whatever entry names are asked of, only datasets with as many values as there are points are listed: `detector`, or
the name of a dataset of that length in a component of the instrument, the monitor or the sample. -/
theorem C76_names_sized (L : List Str) (d d' : Dict) (l : List Str) (h : datasetNames L d = .ok (l, d')) :
    ∃ pts n, (nxGet d "Pt.".toList false).1 = .ok pts ∧ lenOf pts = .ok n ∧ ∀ k ∈ l,
      (k = "detector".toList) ∨ (∃ inst C g, (dropLogs d).get? "instrument".toList = some (.dict inst) ∧
        (C, Val.dict g) ∈ Spec.items inst ∧ Spec.HasSized g n k) ∨
      (∃ mon, Spec.HasSized mon n k ∧ ∃ mon0, (dropLogs d).get? "monitor".toList = some (.dict mon0) ∧
        (mon = mon0 ∨ mon = mon0.erase "data".toList)) ∨
      ∃ samp, Spec.HasSized samp n k ∧ d'.get? "sample".toList = some (.dict samp) := by
  have group : ∀ {d : Dict} {k : Str} {e : Dict}, groupOf d k = .ok e → d.get? k = some (.dict e) := by
    intro d k e h
    obtain ⟨v, hv, h⟩ := py_bind_eq_ok.1 h
    rw [need_eq_ok.1 hv]
    cases v with
    | leaf x => cases h
    | dict g => cases h; rfl
  rw [datasetNames] at h
  obtain ⟨pts, hp, h⟩ := py_bind_eq_ok.1 h
  obtain ⟨n, hn, h⟩ := py_bind_eq_ok.1 h
  obtain ⟨inst, hinst, h⟩ := py_bind_eq_ok.1 h
  obtain ⟨a, ha, h⟩ := py_bind_eq_ok.1 h
  obtain ⟨mon, hmon, h⟩ := py_bind_eq_ok.1 h
  obtain ⟨md, hmd, h⟩ := py_bind_eq_ok.1 h
  obtain ⟨b, hb, h⟩ := py_bind_eq_ok.1 h
  obtain ⟨samp, hsamp, h⟩ := py_bind_eq_ok.1 h
  obtain ⟨c, hc, h⟩ := py_bind_eq_ok.1 h
  obtain ⟨rfl, rfl⟩ := Prod.mk.inj (Except.ok.inj h)
  refine ⟨pts, n, hp, hn, fun k hk => ?_⟩
  rcases List.mem_append.1 hk with hk | hk
  · rcases List.mem_append.1 hk with hk | hk
    · obtain ⟨C, v, b', hm, hcomp, hk'⟩ := (namesInstrument_mem ha k).1 hk
      unfold namesComponent at hcomp
      split at hcomp
      · cases hcomp; cases hk'
      · cases v with
        | leaf x => cases hcomp
        | dict g =>
          dsimp only at hcomp
          split at hcomp
          · split at hcomp
            · cases hcomp
              exact .inl (List.mem_singleton.1 hk')
            · obtain ⟨x, hx, hcomp⟩ := py_bind_eq_ok.1 hcomp
              rw [hx, py_bind_ok] at hcomp
              cases hcomp
              have hk2 : k ∈ x := by rcases List.mem_append.1 hk' with h | h <;> exact h
              exact .inr (.inl ⟨inst, C, g, group hinst, hm, namesIn_sized hx hk2⟩)
          · exact .inr (.inl ⟨inst, C, g, group hinst, hm, namesIn_sized hcomp hk'⟩)
    · refine .inr (.inr (.inl ⟨md.1, namesIn_sized hb hk, mon, group hmon, ?_⟩))
      obtain ⟨o, ho, hmd⟩ := py_bind_eq_ok.1 hmd
      split at hmd
      · cases hmd; exact .inr rfl
      · cases hmd; exact .inl rfl
  · exact .inr (.inr (.inr ⟨samp, namesIn_sized hc hk, group hsamp⟩))

/-- A group with a column of three values and one of two: only the first is listed for a scan of three points. -/
example : namesIn [] 3 (.cons "s1".toList (.dict (nxDs (.fin [1, 2, 3]) [])) (.cons "s2".toList (.dict (nxDs (.fin [1, 2]) [])) .nil)) =
    .ok ["s1".toList] := by
  rw [namesIn, nameItem_nxDs, namesIn, nameItem_nxDs, namesIn]
  simp [sizedArray]

end Tavi
