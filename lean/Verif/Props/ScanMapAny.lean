import Verif.Props.ScanMap
import Verif.Props.HkleAny

/-!
# C95, continued: maps of loaded scans of any lengths
-/

namespace Tavi

open Spec

/-- **C95**: without a grid and without normalisation, the points of all the files are distributed, in order, over as many rows of
equal length as there are scans, or nothing is shown when that does not come out even. The rows are the scans only if all have the
same number of points. -/
theorem C95_rows_any (fmt : Val → Str) (l : List (MemberOf Pt2)) (hne : l ≠ []) (x y z ch0 : Str) (v0 : ℝ)
    (h : ∀ g ∈ l, g.Loaded ∧ (∃ x0 y0, NormalHeader g.file x0 y0 ch0 v0) ∧ FilePoints2 g.file x y z ch0 g.pts)
    (hax : ∀ g ∈ l, ∀ x0 y0, NormalHeader g.file x0 y0 ch0 v0 → x0 = x ∨ x0 = y) :
    (∀ k, (l.flatMap (·.pts)).length = l.length * k → ∃ r, combineMap fmt (l.map (·.scan)) x y z none none = .ok r ∧
      Table r.data.x l.length k ((l.flatMap (·.pts)).map fun q => some q.x) ∧
      Table r.data.y l.length k ((l.flatMap (·.pts)).map fun q => some q.y) ∧
      Table r.data.z l.length k ((l.flatMap (·.pts)).map fun q => some q.z) ∧
      (r.data.z = l.map (fun g => g.pts.map fun q => some q.z) ↔ ∀ g ∈ l, g.pts.length = k) ∧
      MapLabelled fmt (numbersTitle l) x y z v0 ch0 r) ∧
    (¬ l.length ∣ (l.flatMap (·.pts)).length → combineMap fmt (l.map (·.scan)) x y z none none = .error .valueError) := by
  obtain ⟨is, h1, h2, h3, h4, pts, h5, h6⟩ := members_views (M := fun s p => Measured2 s x y z ch0 p)
    measured2_unique (l := l) (fun g hg => by
      obtain ⟨⟨iso, xml, fs, dir, file, ds, hl⟩, hd, hp⟩ := h g hg
      exact ⟨⟨iso, xml, fs, dir, file, ds, hl⟩, hd, fun i => view_measured2 hl i hp⟩)
  have hvne := ne_nil_of_length h4 hne
  set views := List.zipWith ScanObj.view (l.map (·.scan)) is with hviews
  have hflat : ∀ f : Pt2 → Num, views.flatMap (fun s => (pts s).map f) = (l.flatMap (·.pts)).map f := by
    intro f
    rw [List.map_flatMap]
    refine flatMap_of_map ?_
    have := congrArg (List.map (List.map f)) h5
    rw [List.map_map, List.map_map] at this
    exact this
  have hrow : ∀ f : Pt2 → Num, views.map (fun s => (pts s).map f) = l.map (fun g => g.pts.map f) := by
    intro f
    have := congrArg (List.map (List.map f)) h5
    rw [List.map_map, List.map_map] at this
    exact this
  obtain ⟨c1, c2⟩ := C41_any_lengths hvne (x := x) (y := y) (z := z)
    (fx := fun s => (pts s).map fun q => some q.x) (fy := fun s => (pts s).map fun q => some q.y)
    (fz := fun s => (pts s).map fun q => some q.z)
    (fun s hs => (h6 s hs).1.1) (fun s hs => ⟨(h6 s hs).1.2.1, by simp⟩) (fun s hs => ⟨(h6 s hs).1.2.2.1, by simp⟩)
    (fun s hs => by
      obtain ⟨g, hg, y0, hh⟩ := (h6 s hs).2.2
      exact hax g hg _ _ hh)
    (fun s hs => (h6 s hs).2.1)
  have hn : groupNorm is views none = .ok (v0, ch0) := by
    unfold groupNorm
    dsimp only
    rw [if_pos h3, defaultRenorm_ok hvne fun sc hsc => (h6 sc hsc).2.1]
  rw [hflat, h4, List.length_map] at c1 c2
  refine ⟨fun k hk => ?_, fun hd => ?_⟩
  · obtain ⟨d, hd, t1, t2, t3, -, hi⟩ := c1 k hk
    rw [hflat] at t2 t3
    rw [hrow] at hi
    obtain ⟨r, hr, hdat, hl⟩ := labelled_ok fmt d x y z (v0, ch0) (numbersTitle l)
    refine ⟨r, ?_, by rw [hdat]; exact t1, by rw [hdat]; exact t2, by rw [hdat]; exact t3, ?_, hl⟩
    · unfold combineMap
      rw [h1, py_bind_ok, ← hviews, hd, py_bind_ok, hn, py_bind_ok, h2, hr]
    · rw [hdat, hi]
      have e := congrArg (List.map List.length) h5
      rw [List.map_map, List.map_map] at e
      constructor
      · intro hh g hg
        have : g.pts.length ∈ views.map (List.length ∘ pts) := e ▸ List.mem_map_of_mem (f := List.length ∘ (·.pts)) hg
        obtain ⟨s, hs, hse⟩ := List.mem_map.1 this
        have := hh s hs
        rw [List.length_map] at this
        exact hse.symm.trans this
      · intro hh s hs
        have : (pts s).length ∈ l.map (List.length ∘ (·.pts)) := e ▸ List.mem_map_of_mem (f := List.length ∘ pts) hs
        obtain ⟨g, hg, hge⟩ := List.mem_map.1 this
        rw [List.length_map]
        exact hge.symm.trans (hh g hg)
  · unfold combineMap
    rw [h1, py_bind_ok, ← hviews, c2 hd]
    rfl

end Tavi
