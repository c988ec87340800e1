import Verif.Props.Ini

/-! # C103 on concrete files -/

namespace Tavi

open Spec

namespace IniDemo

/-- A settings file: other page, an own field, an own section with a value on several lines. -/
def mine : Str := "[global.other]\nHelp_URL: http://help\n  debug\nn = 3\n\n[view]\nwide=True\nlist =\n\ta\n\tb\n".toList

/-- A template with one more field. -/
def newer : Str := "[global.other]\nhelp_url = http://new\nlevel = 2\n".toList

theorem mine_quiet : NoComments mine := by unfold NoComments; decide +kernel
theorem newer_quiet : NoComments newer := by unfold NoComments; decide +kernel
theorem shipped_quiet : NoComments shippedTemplate := by unfold NoComments; decide +kernel

theorem newer_page : getDataText (some newer) "global.other".toList "help_url".toList = .ok (.str "http://new".toList) := by
  decide +kernel

/-- The value on several lines of the file is kept by the start. -/
example : ∃ text', startConfig (some newer) (some mine) = (some text', .ok true) ∧
    getDataText (some text') "view".toList "list".toList = .ok (.str "\na\nb".toList) :=
  C103_kept_partial mine newer mine_quiet newer_quiet newer_page _ _ (by decide) _ (by decide) (by decide +kernel)

/-- The field of the template is added. -/
example : ∃ text', startConfig (some newer) (some mine) = (some text', .ok true) ∧
    getDataText (some text') "global.other".toList "Level".toList = .ok (.str "2".toList) := by
  have hc' : iniRead dataMode mine = .ok ⟨[], [("global.other".toList, [("help_url".toList, some "http://help\ndebug".toList),
    ("n".toList, some "3".toList)]), ("view".toList, [("wide".toList, some "True".toList), ("list".toList, some "\na\nb".toList)])]⟩ := by
    rfl
  have ht' : iniRead dataMode newer = .ok ⟨[], [("global.other".toList, [("help_url".toList, some "http://new".toList),
    ("level".toList, some "2".toList)])]⟩ := by rfl
  have hp : NoPercent ⟨[], [("global.other".toList, [("help_url".toList, some "http://new".toList),
      ("level".toList, some "2".toList)])]⟩ := by
    refine ⟨by simp, ?_⟩
    intro s hs e he v hv
    obtain rfl := List.mem_singleton.1 hs
    rcases List.mem_cons.1 he with rfl | he
    · cases hv; decide
    · obtain rfl := List.mem_singleton.1 he
      cases hv; decide
  obtain ⟨text', h1, h2⟩ := C103_added_partial mine newer mine_quiet newer_quiet hc' ht' hp "global.other".toList "Level".toList
    (by decide) (by decide) (by decide +kernel) (by decide +kernel)
  exact ⟨text', h1, h2.trans (by decide +kernel)⟩

/-- The first start with the template of the project: the page of the project opens. -/
example : ∃ text', startConfig (some shippedTemplate) none = (some text', .ok true) ∧
    helpPage (some text') true =
      .ok (some (.str "https://github.com/neutrons/python_project_template/blob/main/README.md".toList)) := by
  obtain ⟨text', h1, h2⟩ := C103_first shippedTemplate shipped_quiet (a := "x".toList) (b := []) (w := .none) (by decide +kernel)
  refine ⟨text', h1, ?_⟩
  unfold helpPage
  rw [h2]
  decide +kernel

/-- Starting twice with a commented file: the second start changes nothing. -/
example : ∃ text', startConfig (some newer) (some "[view]\n; Wide\nwide = True\n".toList) = (some text', .ok true) ∧
    startConfig (some newer) (some text') = (some text', .ok true) := by
  have h : startConfig (some newer) (some "[view]\n; Wide\nwide = True\n".toList) =
      (some "[view]\n; wide\nwide = True\n\n[global.other]\nhelp_url = http://new\nlevel = 2\n\n".toList, .ok true) := by
    decide +kernel
  exact ⟨_, h, C103_again newer _ _ h⟩

/-- Settings as they are written. -/
def settings : Settings := [("view".toList, [("wide".toList, "True".toList), ("page".toList, "http://a b".toList)]), ("empty one".toList, [])]

theorem tight_of {s : Str} (h : (s.head?.elim true fun c => !isSpace c) = true ∧ (s.getLast?.elim true fun c => !isSpace c) = true) :
    Tight s := by
  refine ⟨fun c hc => ?_, fun c hc => ?_⟩
  · have := h.1; rw [hc] at this; simpa using this
  · have := h.2; rw [hc] at this; simpa using this

theorem settings_writable : Writable settings := by
  refine ⟨by decide, ?_⟩
  intro s hs
  rcases List.mem_cons.1 hs with rfl | hs
  · refine ⟨by decide, by decide, by decide, by decide, ?_⟩
    intro e he
    rcases List.mem_cons.1 he with rfl | he
    · exact ⟨⟨by decide, tight_of (by decide), by decide, by decide, by decide, by decide, by decide⟩, tight_of (by decide), by decide, by decide⟩
    · obtain rfl := List.mem_singleton.1 he
      exact ⟨⟨by decide, tight_of (by decide), by decide, by decide, by decide, by decide, by decide⟩, tight_of (by decide), by decide, by decide⟩
  · obtain rfl := List.mem_singleton.1 hs
    exact ⟨by decide, by decide, by decide, by decide, by simp⟩

/-- `wide = True` is read as a truth value, under the name `WIDE` too, before and after the start. -/
example : ∃ text', startConfig (some newer) (some (settingsText settings)) = (some text', .ok true) ∧
    getDataText (some (settingsText settings)) "view".toList "WIDE".toList = .ok (.bool true) ∧
    getDataText (some text') "view".toList "WIDE".toList = .ok (.bool true) := by
  obtain ⟨text', h1, h2, -⟩ := C103_text settings settings_writable newer newer_quiet newer_page
  obtain ⟨r, hr, h3, h4⟩ := h2 _ List.mem_cons_self _ List.mem_cons_self "WIDE".toList (by decide)
  have : r = .bool true := by
    rcases hr with h | h | h | h
    · exact h.2
    · exact absurd h.1 (by decide)
    · exact absurd h.1 (by decide)
    · exact absurd rfl h.1
  subst this
  exact ⟨text', h1, h3, h4⟩

/-- A failed start leaves the file alone. -/
example : (startConfig (some newer) (some "no section\n".toList)) = (some "no section\n".toList, .error .missingHeader) := by
  decide +kernel

end IniDemo

end Tavi
