import Verif.Props.ScanPlotUse

/-!
# C94, continued: what is drawn
-/

namespace Tavi

open Spec

/-- The operations by which curves are added. -/
def addOps (L : List (LabelledData × ℕ)) : List PlotOp :=
  L.flatMap fun rk => [.addScan 0 rk.2 (curveFmt rk.2 rk.1), .setTitle 0 (some rk.1.title)]

theorem run_add : ∀ (L : List (LabelledData × ℕ)) (w : PlotWorld), (L.map Prod.snd).Nodup →
    (w.run (addOps L)).plots 0 = { (w.plots 0) with
      scans := (w.plots 0).scans ++ L.map Prod.snd
      title := (L.getLast?.map fun rk => some rk.1.title).getD (w.plots 0).title } ∧
    (∀ k ∉ L.map Prod.snd, (w.run (addOps L)).data k = w.data k) ∧
    ∀ rk ∈ L, (w.run (addOps L)).data rk.2 =
      { (w.data rk.2) with fmt := assocUpdate (w.data rk.2).fmt (curveFmt rk.2 rk.1) }
  | [], w, _ => by simp [addOps, PlotWorld.run]
  | rk :: L, w, hn => by
    rw [List.map_cons, List.nodup_cons] at hn
    have e : w.run (addOps (rk :: L)) =
        ((w.step (.addScan 0 rk.2 (curveFmt rk.2 rk.1))).step (.setTitle 0 (some rk.1.title))).run (addOps L) := rfl
    obtain ⟨h1, h2, h3⟩ := run_add L ((w.step (.addScan 0 rk.2 (curveFmt rk.2 rk.1))).step (.setTitle 0 (some rk.1.title))) hn.2
    rw [e]
    refine ⟨?_, fun k hk => ?_, fun rj hj => ?_⟩
    · rw [h1]
      cases L with
      | nil => simp [PlotWorld.step, PlotWorld.at]
      | cons a L =>
        simp [PlotWorld.step, PlotWorld.at, List.getLast?_cons]
    · rw [List.map_cons, List.mem_cons, not_or] at hk
      rw [h2 k hk.2]
      simp [PlotWorld.step, PlotWorld.at, hk.1]
    · rcases List.mem_cons.1 hj with rfl | hj
      · rw [h2 _ hn.1]
        simp [PlotWorld.step, PlotWorld.at]
      · rw [h3 _ hj]
        have hne : rj.2 ≠ rk.2 := fun e => hn.1 (e ▸ List.mem_map_of_mem hj)
        simp [PlotWorld.step, PlotWorld.at, hne]

/-- **C94**: `plot` draws each curve with its errors, in the colours of the cycle, with its label in the legend; the title is the
one of the last curve, and the labels of the axes are those of the curves. -/
theorem C94_drawn (fmt : Val → Str) (order : List Str → List Str) (s : ScanObj) (xa ya : Option Str) (normTo : Option (ℝ × Str))
    (grid tol : Option RebinArg) (l : List LabelledData) (last : LabelledData) (hlast : l.getLast? = some last)
    (h : s.curves fmt xa ya normTo grid tol = .ok l) :
    s.plot fmt order xa ya normTo grid tol = .ok
      (l.zipIdx.map (fun rk => .errorbar rk.1.data.x rk.1.data.y rk.1.data.err
          [("c".toList, 'C' :: decStr rk.2), ("fmt".toList, "o".toList), ("label".toList, rk.1.label)]) ++
        [.title last.title, .xlabel (joinStr ",".toList (order (l.map (·.xlabel)))),
          .ylabel (joinStr ",".toList (order (l.map (·.ylabel)))), .grid, .legend]) := by
  have hnd : (l.zipIdx.map Prod.snd).Nodup := by
    rw [List.zipIdx_map_snd]; exact List.nodup_range'
  obtain ⟨h1, _, h3⟩ := run_add l.zipIdx
    { data := fun k => (l[k]?.map LabelledData.plotData).getD ⟨[], [], none, [], none, none, []⟩, plots := fun _ => .new } hnd
  have hw : ∀ rk ∈ l.zipIdx, (plotOf l).data rk.2 = { rk.1.plotData with fmt := curveFmt rk.2 rk.1 } := by
    intro rk hrk
    refine (h3 rk hrk).trans ?_
    obtain ⟨h4, h5⟩ := List.mem_zipIdx' hrk
    dsimp only
    rw [List.getElem?_eq_getElem h4, ← h5]
    rfl
  have hp : (plotOf l).plots 0 = { Plot1D.new with
      scans := l.zipIdx.map Prod.snd, title := some last.title } := by
    refine h1.trans ?_
    have : l.zipIdx.getLast?.map (fun rk => some rk.1.title) = some (some last.title) := by
      have h6 := congrArg (Option.map LabelledData.title) hlast
      rw [← List.getLast?_map] at h6 ⊢
      have h7 : l.zipIdx.map (fun rk : LabelledData × ℕ => some rk.1.title) = (l.map (·.title)).map some := by
        rw [List.map_map]
        refine List.ext_getElem (by simp) fun k _ _ => by simp
      rw [h7, List.getLast?_map, h6]
      rfl
    rw [this]
    rfl
  have hl : ∀ (g : PlotData → Option Str) (g' : LabelledData → Str),
      (∀ r : LabelledData, ∀ x, g { r.plotData with fmt := x } = some (g' r)) →
      ((l.zipIdx.map Prod.snd).map fun o => g ((plotOf l).data o)).mapM (fun t => need t .attributeError) = .ok (l.map g') := by
    intro g g' hg
    rw [List.map_map, List.map_congr_left (g := fun rk => some (g' rk.1)) (fun rk hrk => by
      show g ((plotOf l).data rk.2) = _
      rw [hw rk hrk]; exact hg _ _), List.mapM_map]
    refine (mapM_ok (g := fun rk : LabelledData × ℕ => g' rk.1) (fun rk _ => rfl)).trans ?_
    refine congrArg Except.ok (List.ext_getElem (by simp) fun k _ _ => by simp)
  unfold ScanObj.plot PlotWorld.calls
  rw [h, py_bind_ok, hp]
  dsimp only [Plot1D.new]
  rw [labelCall, hl (fun d => d.xlabel) (·.xlabel) (fun _ _ => rfl)]
  show (labelCall order none _ _ >>= _) = _
  rw [labelCall, hl (fun d => d.ylabel) (·.ylabel) (fun _ _ => rfl)]
  refine congrArg Except.ok ?_
  have hs : (l.zipIdx.map Prod.snd).map (fun o => scanCall ((plotOf l).data o)) = l.zipIdx.map (fun rk =>
      .errorbar rk.1.data.x rk.1.data.y rk.1.data.err
          [("c".toList, 'C' :: decStr rk.2), ("fmt".toList, "o".toList), ("label".toList, rk.1.label)]) := by
    rw [List.map_map]
    refine List.map_congr_left fun rk hrk => ?_
    show scanCall ((plotOf l).data rk.2) = _
    rw [hw rk hrk]
    rfl
  rw [hs]
  have ht : (plotOf l).titleAfter { Plot1D.new with scans := l.zipIdx.map Prod.snd, title := some last.title } = some last.title := by
    unfold PlotWorld.titleAfter
    dsimp only
    split
    · rename_i o ho
      rw [List.getLast?_map] at ho
      obtain ⟨rk, hrk, rfl⟩ := Option.map_eq_some_iff.1 ho
      rw [hw rk (List.mem_of_getLast? hrk)]
      have : l.getLast? = some rk.1 := by
        have := congrArg (Option.map Prod.fst) hrk
        rw [← List.getLast?_map, List.zipIdx_map_fst] at this
        exact this
      rw [hlast] at this
      rw [Option.some.inj this]
      rfl
    · rfl
  have hleg : (((l.zipIdx.map Prod.snd).map fun o => ((plotOf l).data o).fmt).any
      fun f => (lookupKey "label".toList f).isSome) = true := by
    obtain ⟨rk, hrk⟩ : ∃ rk, rk ∈ l.zipIdx := by
      cases l with
      | nil => cases hlast
      | cons a l => exact ⟨(a, 0), by simp⟩
    rw [List.any_eq_true]
    refine ⟨_, List.mem_map_of_mem (List.mem_map_of_mem hrk), ?_⟩
    rw [hw rk hrk]
    rfl
  dsimp only [Plot1D.new] at ht
  rw [ht, hleg]
  simp

end Tavi
