import Verif.Props.IniComments
import Verif.Props.IniDemo

/-! # C103 on a concrete file with comments -/

namespace Tavi

open Spec

namespace IniDemo

/-- A settings file with comments. -/
def noted : Str := "[global.other]\n# the page of the group\nhelp_url = http://group\n\n; old = http://old\n[view]\n# wide: yes\nwide = True\n".toList

theorem noted_flat : Flat noted := by
  unfold Flat
  have h : (splitChar '\n' noted).all (fun l => l.all isSpace || (match l.head? with
      | some c => !isSpace c && c != '/'
      | none => true)) = true := by decide +kernel
  intro l hl hb c hc
  have := List.all_eq_true.1 h l hl
  rw [hc] at this
  have hnot : l.all isSpace = false := by
    rw [Bool.eq_false_iff]
    exact fun h => hb fun c hc => List.all_eq_true.1 h c hc
  rw [hnot] at this
  simpa using this

theorem noted_first : HeadFirst (splitChar '\n' noted) := by
  intro pre line post he hp
  cases pre with
  | nil =>
    have : line = "[global.other]".toList := by
      have h := congrArg List.head? he
      have h' : (splitChar '\n' noted).head? = some "[global.other]".toList := by decide +kernel
      rw [h'] at h
      exact (Option.some.inj h).symm
    rw [this]
    unfold Remark
    decide +kernel
  | cons p pre =>
    exfalso
    have h := congrArg List.head? he
    have h' : (splitChar '\n' noted).head? = some "[global.other]".toList := by decide +kernel
    rw [h'] at h
    have : "[global.other]".toList = p := Option.some.inj h
    have := hp p (by simp) '[' (by rw [← this]; decide +kernel)
    exact absurd this (by decide)

set_option maxRecDepth 8000 in
/-- The application starts with the commented file, keeps its settings and adds that of the template. -/
example : ∃ text', startConfig (some newer) (some noted) = (some text', .ok true) ∧
    getDataText (some text') "global.other".toList "help_url".toList = .ok (.str "http://group".toList) ∧
    getDataText (some text') "view".toList "wide".toList = .ok (.bool true) ∧
    getDataText (some text') "global.other".toList "level".toList = .ok (.str "2".toList) := by
  obtain ⟨text', hs⟩ := C103_comments_start noted newer noted_flat newer_quiet newer_page (a' := "view".toList)
    (b' := "wide".toList) (w' := .bool true) (by decide +kernel) noted_first (by decide +kernel)
  refine ⟨text', hs, ?_, ?_, ?_⟩
  · exact C103_comments_kept noted newer text' noted_flat newer_quiet newer_page hs _ _ (by decide) _ (by decide) (by decide +kernel)
  · exact C103_comments_kept noted newer text' noted_flat newer_quiet newer_page hs _ _ (by decide) _ (by decide) (by decide +kernel)
  · have hc : iniRead dataMode noted = .ok ⟨[], [("global.other".toList, [("help_url".toList, some "http://group".toList)]),
      ("view".toList, [("wide".toList, some "True".toList)])]⟩ := by rfl
    have ht : iniRead dataMode newer = .ok ⟨[], [("global.other".toList, [("help_url".toList, some "http://new".toList),
      ("level".toList, some "2".toList)])]⟩ := by rfl
    have hp : NoPercent ⟨[], [("global.other".toList, [("help_url".toList, some "http://new".toList),
        ("level".toList, some "2".toList)])]⟩ := by
      refine ⟨by simp, ?_⟩
      intro s hs e he v hv
      obtain rfl := List.mem_singleton.1 hs
      rcases List.mem_cons.1 he with rfl | he
      · cases hv; decide
      · obtain rfl := List.mem_singleton.1 he
        cases hv; decide
    rw [C103_comments_added noted newer text' noted_flat newer_quiet hc ht hp hs "global.other".toList "level".toList
      (by decide) (by decide) (by decide +kernel) (by decide +kernel)]
    decide +kernel

end IniDemo

end Tavi
