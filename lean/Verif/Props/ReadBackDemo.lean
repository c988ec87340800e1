import Verif.Props.ReadBack
import Verif.Props.PlotLinkDemo

/-!
# Looking up data in an entry that was written and read back: a concrete case (C81)
-/

namespace Tavi

open Spec

namespace Demo

/-- One group of the loop is searched and does not have it. -/
theorem scan_skip {k' : Str} {e R : Dict} {parts : List Str} (h : ¬ (k' = kAttrs ∨ k' = kDataset))
    (hg : getItem e parts false = .ok none) : scanItems (.cons k' (.dict e) R) parts false = scanItems R parts false := by
  rw [scan_cons, if_neg h]; dsimp only; rw [hg]

/-- One group of the loop is searched and has it. -/
theorem scan_stop {k' : Str} {e R : Dict} {parts : List Str} {x : Val} (h : ¬ (k' = kAttrs ∨ k' = kDataset))
    (hg : getItem e parts false = .ok (some x)) : scanItems (.cons k' (.dict e) R) parts false = .ok (some x) := by
  rw [scan_cons, if_neg h]; dsimp only; rw [hg]

theorem item_skip {e : Dict} {k : Str} {ks : List Str} (h : ¬ e.has k = true) (hs : scanItems e (k :: ks) false = .ok none) :
    getItem e (k :: ks) false = .ok none := by
  rw [item_absent h, hs]

theorem scan_attrs {v : Val} {parts : List Str} {R : Dict} :
    scanItems (.cons "attrs".toList v R) parts false = scanItems R parts false := by
  rw [scan_cons, if_pos (.inl rfl)]

theorem scan_data {v : Val} {parts : List Str} {R : Dict} :
    scanItems (.cons "dataset".toList v R) parts false = scanItems R parts false := by
  rw [scan_cons, if_pos (.inr rfl)]

theorem scan_nil {parts : List Str} : scanItems .nil parts false = .ok none := by rw [scanItems.eq_def]

theorem plotted_s1 : (nxGet plotted "s1".toList false).1 = .ok (some (.leaf (.fin [10, 20]))) := by
  show getItem plotted ["s1".toList] false = _
  rw [item_absent (by decide), plotted, scan_attrs, scan_skip (by decide) (item_skip (by decide) (by rw [scan_attrs, scan_nil])),
    scan_skip (by decide), scan_stop (by decide)]
  · rw [item_dict (e := .cons "dataset".toList (.leaf (.fin [10, 20])) .nil) (by decide) rfl]; rfl
  · refine item_skip (by decide) ?_
    rw [scan_skip (by decide), scan_nil]
    refine item_skip (by decide) ?_
    rw [scan_skip (by decide), scan_nil]
    refine item_skip (by decide) ?_
    rw [scan_data, scan_nil]

theorem plotted_detector : (nxGet plotted "detector".toList false).1 = .ok (some (.leaf (.fin [5, 7]))) := by
  show getItem plotted ["detector".toList, "data".toList] false = _
  rw [item_absent (by decide), plotted, scan_attrs, scan_skip (by decide) (item_skip (by decide) (by rw [scan_attrs, scan_nil])),
    scan_stop (by decide)]
  rw [item_dict (e := .cons "dataset".toList (.leaf (.fin [5, 7])) .nil) (by decide) rfl]; rfl

/-- The entry with the plot of `detector` against `s1`, written to a new file and read back, still gives 5 and 7 for `detector`
and 10 and 20 for `s1`. -/
example : ∃ f' r e, toNexusFile plotted "scan0034".toList NxFile.new = .ok f' ∧ fromNexusFile f' none = .ok r ∧
    r.get? "scan0034".toList = some (.dict e) ∧ (nxGet e "detector".toList false).1 = .ok (some (.leaf (.fin [5, 7]))) ∧
    (nxGet e "s1".toList false).1 = .ok (some (.leaf (.fin [10, 20]))) := by
  obtain ⟨f', r, e, h1, h2, h3, h4⟩ := C81_lookup plotted plotted_entry "scan0034".toList NxFile.new [] .nil rfl rfl
    (by simp [NxFile.new]) "s1".toList "detector".toList _ _ _ rfl (fun k => by
      rw [view, if_neg (by decide)]
      show view (.cons "attrs".toList _ .nil) [k] = none
      rw [view]
      split
      · rfl
      · rename_i h
        rw [Dict.get?, if_neg (fun e => h (.inl e.symm))]
        rfl) rfl rfl (by decide) (plain_of _ (by decide))
    (plain_of _ (by decide)) plotted_x plotted_y (by
      intro k p v B key hk hv hkey
      rcases hk with ⟨rfl, hp⟩ | ⟨rfl, hp⟩
      · obtain ⟨rfl, _⟩ := path_single hkey
        obtain rfl := Option.some.inj hp
        have ex : view plotted ["sample".toList, "s1".toList] = some (some (.fin [10, 20]), fun _ => none) := rfl
        rw [ex] at hv
        obtain rfl := Option.some.inj (Prod.mk.inj (Option.some.inj hv)).1
        exact plotted_s1
      · exact absurd (path_single hkey).2 (by decide))
  refine ⟨f', r, e, h1, h2, h3, ?_, ?_⟩
  · rw [h4 _ (by decide) (by decide), plotted_detector]
  · rw [h4 _ (by decide) (by decide), plotted_s1]

end Demo

end Tavi
