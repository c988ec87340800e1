import Verif.Props.GroupUse
import Verif.Props.ScanPlotUse

/-! # C37, C38, continued: where groups and differences fail, for all inputs -/

namespace Tavi

/-- **C37** Every group in which some scan lacks a column is refused on that axis, also for `del_q(…)`, which is never a
column. -/
theorem C37_group_refuses {scans : List Scan} {x y : Str} (h : ∃ s ∈ scans, lookupKey x s.data = none)
    (norm : Option (ℝ × Str)) (grid tol : Option RebinArg) : combine1D scans x y norm grid tol = .error .keyError := by
  unfold combine1D
  rw [groupCol_missing h]
  rfl

/-- **C37** No counts column with an underscore in its name can be read from a scan with a normal preset, whatever else is asked
for; a group gives it (`C37_underscore_refused`). -/
theorem C37_underscore_scan {s : Scan} {ch : Str} {v : ℝ} (hp : s.preset = .normal ch v) (x : Option Str) {y : Str} (hu : '_' ∈ y)
    (norm : Option (ℝ × Str)) (grid tol : Option RebinArg) (r : ScanData1D) : s.getData x (some y) norm grid tol ≠ .ok r := by
  intro he
  unfold Scan.getData at he
  dsimp only at he
  have e : s.labelOk ((some y).getD s.defY) = .ok () := by
    split at he
    all_goals
      obtain ⟨_, _, he⟩ := py_bind_eq_ok.1 he
      obtain ⟨_, _, he⟩ := py_bind_eq_ok.1 he
      obtain ⟨_, e, _⟩ := py_bind_eq_ok.1 he
      exact e
  unfold Scan.labelOk at e
  rw [Option.getD_some, if_pos (split_two hu)] at e
  obtain ⟨_, _, e⟩ := py_bind_eq_ok.1 e
  rw [hp] at e
  cases e

/-- **C38** Data sets of different lengths are never subtracted: either the subtraction fails, or no point of the second lies in the
range of the first; then no intensity of the result is defined, and all intensities and errors of the second operand are
overwritten. -/
theorem C38_unequal (self other : ScanData1D) (hl : self.x.length ≠ other.x.length) :
    (∃ e, (self.sub other).result = .error e ∧ (self.sub other).other = other) ∨
    ((∀ r, (self.sub other).result = .ok r → ∀ v ∈ r.y, v = none) ∧
      (self.sub other).other.y = List.replicate self.x.length none ∧
      (self.sub other).other.err = List.replicate self.x.length none) := by
  unfold ScanData1D.sub
  rw [if_pos hl]
  by_cases h2 : self.x.length < 2
  · rw [if_pos h2]; exact .inl ⟨_, rfl, rfl⟩
  · rw [if_neg h2]
    dsimp only
    split
    · exact .inl ⟨_, rfl, rfl⟩
    · refine .inr ⟨fun r hr v hv => ?_, rfl, rfl⟩
      obtain ⟨y, hy, hr⟩ := py_bind_eq_ok.1 hr
      obtain ⟨e, -, hr⟩ := py_bind_eq_ok.1 hr
      rw [← Except.ok.inj hr] at hv
      have hv : v ∈ y := hv
      unfold zipN at hy
      split at hy
      · rw [← Except.ok.inj hy] at hv
        obtain ⟨i, hi, rfl⟩ := List.getElem_of_mem hv
        rw [List.getElem_zipWith, List.getElem_replicate]
        cases self.y[i]'(by simp at hi; omega) <;> rfl
      · cases hy

end Tavi
