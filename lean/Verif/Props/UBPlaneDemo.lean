import Verif.Props.UBPlaneAll
import Verif.Props.Demo

/-! # C17: plane vectors that are not orthogonal, and a peak out of the plane -/

namespace Tavi

open Matrix Real
open Spec (IsRot IsOrth PossibleCell IsAngleDeg len)

namespace Demo

theorem oblique : cross (![1, 0, 0] : V3) ![1, 1, 0] ≠ 0 := by
  intro h; have := congrFun h 2; simp at this

theorem measured_ne : (![-1, 0, 1] : V3) ≠ 0 := by
  intro h; have := congrFun h 0; simp at this

/-- The plane of (1,0,0) and (1,1,0): with the peak (1,-1,0) its normal points up. -/
example : ∃ U R, findUFromOnePeak (pk ![1, -1, 0] 0 0) ![1, 0, 0] ![1, 1, 0] 1 ({} : Goni).rMatInv ksq2eng ksq2eng = .ok U ∧
    ({} : Goni).rMat (pk ![1, -1, 0] 0 0).angles = .ok R ∧ ∃ c : ℝ, 0 < c ∧ U *ᵥ ![0, 0, 1] = c • (Rᵀ *ᵥ ![0, 1, 0]) := by
  have ht : Spec.turn ![1, 0, 0] ![1, 1, 0] (pk ![1, -1, 0] 0 0).hkl 2 (-1) = 2 := by
    unfold Spec.turn; simp [pk]
  obtain ⟨U, R, h, _, hR, _, c, hc, h'⟩ := (C17_every_peak (g := {}) (ei := ksq2eng) (ef := ksq2eng) (x := 2) (y := -1) (b := 1)
    (p := pk ![1, -1, 0] 0 0) (by simp) oblique (by apply ext3 <;> simp [pk]; norm_num) (measured1 _) measured_ne).2
    (by rw [ht]; norm_num)
  refine ⟨U, R, h, hR, c * 2, by linarith, ?_⟩
  rw [ht, one_mulVec, one_mulVec] at h'
  rw [← h']; congr 1; apply ext3 <;> simp

/-- With the peak (2,1,0) it points down. -/
example : ∃ U R, findUFromOnePeak (pk ![2, 1, 0] 0 0) ![1, 0, 0] ![1, 1, 0] 1 ({} : Goni).rMatInv ksq2eng ksq2eng = .ok U ∧
    ({} : Goni).rMat (pk ![2, 1, 0] 0 0).angles = .ok R ∧ ∃ c : ℝ, 0 < c ∧ U *ᵥ ![0, 0, 1] = (-c) • (Rᵀ *ᵥ ![0, 1, 0]) := by
  have ht : Spec.turn ![1, 0, 0] ![1, 1, 0] (pk ![2, 1, 0] 0 0).hkl 1 1 = -1 := by
    unfold Spec.turn; simp [pk, Real.sign]; norm_num
  obtain ⟨U, R, h, _, hR, _, c, hc, h'⟩ := (C17_every_peak (g := {}) (ei := ksq2eng) (ef := ksq2eng) (x := 1) (y := 1) (b := 1)
    (p := pk ![2, 1, 0] 0 0) (by simp) oblique (by apply ext3 <;> simp [pk]; norm_num) (measured1 _) measured_ne).2
    (by rw [ht]; norm_num)
  refine ⟨U, R, h, hR, c, hc, ?_⟩
  rw [ht, one_mulVec, one_mulVec] at h'
  rw [← neg_one_mul, mul_comm, ← h']; congr 1; apply ext3 <;> simp

/-- A peak out of the plane, oblique to it: found. Perpendicular to the plane: nothing. -/
example : (∃ U, findUFromOnePeak (pk ![1, 0, 1] 0 0) ![1, 0, 0] ![1, 1, 0] 1 ({} : Goni).rMatInv ksq2eng ksq2eng = .ok U ∧ IsRot U) ∧
    findUFromOnePeak (pk ![0, 0, 1] 0 0) ![1, 0, 0] ![1, 1, 0] 1 ({} : Goni).rMatInv ksq2eng ksq2eng = .error .nonFinite := by
  constructor
  · obtain ⟨U, h, hU, _⟩ := (C17_out_of_plane (g := {}) (ei := ksq2eng) (ef := ksq2eng) (b := 1) (v1 := ![1, 0, 0]) (v2 := ![1, 1, 0])
      (p := pk ![1, 0, 1] 0 0) (by simp) (by simp only [dot3, pk]; simp) (measured1 _) measured_ne).2 (by simp only [dot3, pk]; simp)
    exact ⟨U, h, hU⟩
  · exact (C17_out_of_plane (g := {}) (ei := ksq2eng) (ef := ksq2eng) (b := 1) (v1 := ![1, 0, 0]) (v2 := ![1, 1, 0])
      (p := pk ![0, 0, 1] 0 0) (by simp) (by simp only [dot3, pk]; simp) (measured1 _) measured_ne).1 (by simp only [dot3, pk]; simp)

end Demo

end Tavi
