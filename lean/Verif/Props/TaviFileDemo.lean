import Verif.Props.TaviFile
import Verif.Props.ScanFileDemo

/-!
# Saved sessions (cases for C46)
-/

namespace Tavi

open Spec

namespace Demo

theorem plotted_plot : PlotOf plotted "s1".toList "detector".toList (some ["sample".toList, "s1".toList])
    (some ["instrument".toList, "detector".toList, "data".toList]) := by
  refine ⟨⟨_, rfl, rfl, rfl⟩, by decide, plotted_x, plotted_y, ?_⟩
  intro k z hk h
  rcases hk with rfl | rfl
  · exact absurd h (by rw [show view plotted ["data".toList, "s1".toList] = none from rfl]; simp)
  · exact absurd h (by rw [show view plotted ["data".toList, "detector".toList] = none from rfl]; simp)

/-- A session with two experiments. -/
noncomputable def twoExps : TaviData :=
  [("exp1".toList, [("scan0034".toList, plotted), ("scan0035".toList, plotted)]), ("exp2".toList, [("scan0034".toList, plotted)])]

theorem filed_two {e n : Str} {d : Dict} (h : filed twoExps e n = some d) :
    (n = "scan0034".toList ∨ n = "scan0035".toList) ∧ d = plotted := by
  rw [filed, twoExps, lookupKey] at h
  split at h
  · rw [Option.bind_some, lookupKey] at h
    split at h
    · rename_i hn; exact ⟨.inl hn.symm, (Option.some.inj h).symm⟩
    · rw [lookupKey] at h
      split at h
      · rename_i hn; exact ⟨.inr hn.symm, (Option.some.inj h).symm⟩
      · exact absurd h (by simp [lookupKey])
  · rw [lookupKey] at h
    split at h
    · rw [Option.bind_some, lookupKey] at h
      split at h
      · rename_i hn; exact ⟨.inl hn.symm, (Option.some.inj h).symm⟩
      · exact absurd h (by simp [lookupKey])
    · exact absurd h (by simp [lookupKey])

/-- After saving and opening, the plot of a scan shows 5 and 7, and these are at `/data/exp1/scan0035/instrument/detector/data`. -/
example : ∃ t d' B w C, saveFile (some "a.h5".toList) twoExps = .ok t ∧ filed (openTavi t) "exp1".toList "scan0035".toList = some d' ∧
    view d' ["data".toList, "detector".toList] = some (some (.fin [5, 7]), B) ∧
    view d' ["instrument".toList, "detector".toList, "data".toList] = some (w, C) ∧
    C "target".toList = some (.str "/data/exp1/scan0035/instrument/detector/data".toList) ∧
    filed (openTavi t) "exp2".toList "scan0035".toList = none := by
  obtain ⟨t, h1, h2⟩ := C46_file twoExps ⟨by decide, by simp [twoExps]⟩ (fun e n d h => by
    obtain ⟨hn, rfl⟩ := filed_two h
    refine ⟨?_, plotted_entry, .inr ⟨_, _, _, _, plotted_plot⟩⟩
    rcases hn with rfl | rfl
    · exact plain_of _ (by decide)
    · exact plain_of _ (by decide)) "a.h5".toList
  obtain ⟨d', h3, _, h4⟩ := (h2 "exp1".toList "scan0035".toList).2 plotted rfl
  obtain ⟨_, h5⟩ := h4 _ _ _ _ plotted_plot
  obtain ⟨h6, w, C, h7, h8⟩ := h5 _ _ _ (.inr ⟨rfl, rfl⟩) rfl
  have ey : view plotted ["instrument".toList, "detector".toList, "data".toList] = some (some (.fin [5, 7]), fun _ => none) := rfl
  have h9 := h6.1
  rw [ey] at h9
  cases hc : view d' ["data".toList, "detector".toList] with
  | none => rw [hc] at h9; exact absurd h9 (by simp)
  | some z =>
    rw [hc] at h9
    obtain ⟨z1, z2⟩ := z
    rw [Option.map_some, Option.map_some] at h9
    obtain rfl := Option.some.inj h9
    exact ⟨t, d', z2, w, C, h1, h3, hc, h7, h8, (h2 "exp2".toList "scan0035".toList).1 rfl⟩

/-- A scan loaded from a data file and looked at twice, saved and opened. -/
example : ∃ (s s' : ScanObj) (d d' : Dict) (t : TaviFile),
    saveFile (some "a.h5".toList) [("exp1".toList, [(scanName 34, d)])] = .ok t ∧
    d.get? "SPICElogs".toList = none ∧ newScan [] (scanName 34) d' = .ok s' ∧ filed (openTavi t) "exp1".toList (scanName 34) = some d' ∧
    lookupKey "en".toList s'.data = lookupKey "en".toList s.data ∧ scanInfo s' = scanInfo s := by
  obtain ⟨f, s, hm, hc, h⟩ := four_loaded
  obtain ⟨d₀, hd₀, _⟩ := h.2
  set d := afterReads (setDatasetName d₀ "IPTS890_HB1A_exp266".toList) [("s1".toList, false), ("s2".toList, false)] with hd
  have hff : FromFile plainDate (fun _ => none) fourDisk (scanName 34) d s :=
    ⟨_, _, _, _, _, _, ⟨four_plain hc, "e".toList, "detector".toList, header_of hm (by decide), header_of hm (by decide), by decide,
      four_abscissa f, four_ordinate f⟩, h, hd₀, hd⟩
  have hfiled : ∀ e n x, filed [("exp1".toList, [(scanName 34, d)])] e n = some x → n = scanName 34 ∧ x = d := by
    intro e n x hx
    rw [filed, lookupKey] at hx
    split at hx
    · rw [Option.bind_some, lookupKey] at hx
      split at hx
      · rename_i hn; exact ⟨hn.symm, (Option.some.inj hx).symm⟩
      · exact absurd hx (by simp [lookupKey])
    · exact absurd hx (by simp [lookupKey])
  obtain ⟨t, h1, h2⟩ := C46_scans plainDate (fun _ => none) fourDisk [("exp1".toList, [(scanName 34, d)])] ⟨by simp, by simp⟩
    (fun e n x hx => by
      obtain ⟨rfl, rfl⟩ := hfiled e n x hx
      exact ⟨by decide, s, hff⟩) "a.h5".toList
  obtain ⟨d', h3, h4⟩ := (h2 "exp1".toList (scanName 34)).2 d (by rw [filed, lookupKey, if_pos rfl, Option.bind_some, lookupKey, if_pos rfl])
  obtain ⟨s', h5, _, h6, _, h7, _⟩ := h4 s hff
  refine ⟨s, s', d, d', t, h1, ?_, h5, h3, h6 _ (by decide) (by decide), h7⟩
  rw [hd, afterReads_cons, ← dropLogs_eq, dropLogs, get?_erase, if_neg (by decide), get?_erase, if_pos rfl]

/-- An entry that asks for a plot without saying of what. -/
def noPlot : Dict :=
  .cons "data".toList (.dict (.cons "attrs".toList (.dict (.cons "axes".toList (.leaf (.str "s1".toList)) .nil)) .nil)) .nil

example : saveFile (some "a.h5".toList) [("exp1".toList, [("scan0034".toList, plotted), ("scan0035".toList, noPlot)])] = .error .keyError :=
  C46_no_plot _ "exp1".toList "scan0035".toList noPlot (.group (plain_of _ (by decide)) (.attrs (.cons rfl .nil) rfl .nil) rfl .nil)
    [("scan0034".toList, plotted)] [] [] ⟨by decide, by simp⟩ rfl (fun m x h => by
      obtain ⟨rfl, rfl⟩ := Prod.mk.inj (List.mem_singleton.1 h)
      exact ⟨plain_of _ (by decide), plotted_entry, .inr ⟨_, _, _, _, plotted_plot⟩⟩) _ rfl (.inl rfl) _

end Demo

end Tavi
