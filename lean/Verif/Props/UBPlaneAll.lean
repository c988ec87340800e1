import Verif.Props.UBPlane
import Mathlib.Data.Real.Sign

/-! # C17, continued: every pair of plane vectors and every peak -/

namespace Tavi

open Matrix Real
open Spec (IsRot IsOrth PossibleCell IsAngleDeg len)

/-- What the code makes of a peak `x v1 + y v2`: positive where the plane comes out as documented, negative where it comes out
upside down, zero where nothing comes out. -/
noncomputable def Spec.turn (v1 v2 hkl : V3) (x y : ℝ) : ℝ :=
  if |v2 ⬝ᵥ hkl| < |v1 ⬝ᵥ hkl| then Real.sign (v1 ⬝ᵥ hkl) * x else -(Real.sign (v2 ⬝ᵥ hkl) * y)

theorem npSign_eq (x : ℝ) : npSign x = Real.sign x := rfl

theorem frame_degenerate {a w : V3} (h : cross a w = 0) : frameMat a (cross (cross a w) a) (cross a w) = .error .nonFinite := by
  have h0 : unit (0 : V3) = .error .nonFinite := by simp [unit, norm3]
  have e : cross (0 : V3) a = 0 := by apply ext3 <;> simp
  unfold frameMat
  rw [h, e, h0]
  by_cases ha : a = 0
  · rw [ha, h0]; rfl
  · rw [unit_nrm ha]; rfl

/-- **C17** for all pairs of plane vectors, orthogonal or not, and all peaks in their plane: whether `v1 × v2` ends up along the
vertical of the measured position, against it, or nothing is found is told by `Spec.turn`. Where something is found, `U` is a
proper rotation and the peak is in the measured direction. -/
theorem C17_every_peak {g : Goni} {ei ef x y : ℝ} {p : Peak} {v1 v2 : V3} {b : M3} {s1 : V3}
    (hb : b.det ≠ 0) (hv : cross v1 v2 ≠ 0) (hp : p.hkl = x • v1 + y • v2) (m1 : Spec.MeasuredQ g ei ef p s1) (h0 : s1 ≠ 0) :
    (Spec.turn v1 v2 p.hkl x y = 0 → findUFromOnePeak p v1 v2 b g.rMatInv ei ef = .error .nonFinite) ∧
    (Spec.turn v1 v2 p.hkl x y ≠ 0 →
      ∃ U R, findUFromOnePeak p v1 v2 b g.rMatInv ei ef = .ok U ∧ IsRot U ∧ g.rMat p.angles = .ok R ∧
      (∃ c : ℝ, 0 < c ∧ U *ᵥ (b *ᵥ p.hkl) = c • s1) ∧
      (∃ c : ℝ, 0 < c ∧ U *ᵥ cross (b *ᵥ v1) (b *ᵥ v2) = (c * Spec.turn v1 v2 p.hkl x y) • (Rᵀ *ᵥ ![0, 1, 0]))) := by
  have key : ∀ b : M3, cross (b *ᵥ p.hkl) (b *ᵥ planeAux v1 v2 p.hkl) =
      Spec.turn v1 v2 p.hkl x y • cross (b *ᵥ v1) (b *ᵥ v2) := fun b => cross_aux hp b
  generalize Spec.turn v1 v2 p.hkl x y = s at key
  constructor
  · rintro rfl
    have k := key b
    rw [zero_smul] at k
    have hau : (if |v1 ⬝ᵥ p.hkl| > |v2 ⬝ᵥ p.hkl| then npSign (v1 ⬝ᵥ p.hkl) • (b *ᵥ v2)
        else npSign (v2 ⬝ᵥ p.hkl) • (b *ᵥ v1)) = b *ᵥ planeAux v1 v2 p.hkl := by
      unfold planeAux
      split <;> rw [Matrix.mulVec_smul]
    unfold findUFromOnePeak
    dsimp only
    rw [hau, frame_degenerate k]
    rfl
  · intro hs
    have key1 := key 1
    simp only [Matrix.one_mulVec] at key1
    obtain ⟨U, R, a1, a2, a3, a4, k, hk, a5⟩ := onePeak_core (g := g) (ei := ei) (ef := ef) hb
      (by rw [key1]; exact smul_ne_zero hs hv) m1 h0
    refine ⟨U, R, a1, a2, a3, a4, k * (s⁻¹) ^ 2, by positivity, ?_⟩
    rw [key b, Matrix.mulVec_smul] at a5
    rw [smul_flip hs a5]
    congr 1
    field_simp

/-- **C17** for peaks out of the plane of the vectors: the peak is in the measured direction, whatever the vectors, unless it is
perpendicular to both of them: then nothing is found. (The plane cannot be met then: the peak is measured in the horizontal
plane.) -/
theorem C17_out_of_plane {g : Goni} {ei ef : ℝ} {p : Peak} {v1 v2 : V3} {b : M3} {s1 : V3}
    (hb : b.det ≠ 0) (hp : cross v1 v2 ⬝ᵥ p.hkl ≠ 0) (m1 : Spec.MeasuredQ g ei ef p s1) (h0 : s1 ≠ 0) :
    (v1 ⬝ᵥ p.hkl = 0 ∧ v2 ⬝ᵥ p.hkl = 0 → findUFromOnePeak p v1 v2 b g.rMatInv ei ef = .error .nonFinite) ∧
    (¬ (v1 ⬝ᵥ p.hkl = 0 ∧ v2 ⬝ᵥ p.hkl = 0) →
      ∃ U, findUFromOnePeak p v1 v2 b g.rMatInv ei ef = .ok U ∧ IsRot U ∧ ∃ c : ℝ, 0 < c ∧ U *ᵥ (b *ᵥ p.hkl) = c • s1) := by
  constructor
  · rintro ⟨e1, e2⟩
    have e : cross (b *ᵥ p.hkl) (0 : V3) = 0 := by apply ext3 <;> simp
    unfold findUFromOnePeak
    dsimp only
    rw [e1, e2, if_neg (by simp), show npSign 0 = 0 by simp [npSign], zero_smul, frame_degenerate e]
    rfl
  · intro hn
    have hx : cross p.hkl (planeAux v1 v2 p.hkl) ≠ 0 := by
      intro h
      apply hp
      have hsgn : ∀ c : ℝ, c ≠ 0 → npSign c ≠ 0 := fun c hc => by rw [npSign_eq]; simpa [Real.sign_eq_zero_iff] using hc
      have main : ∀ (c : ℝ) (v : V3), c ≠ 0 → cross p.hkl (npSign c • v) = 0 → cross p.hkl v = 0 := by
        intro c v hc h
        rw [cross_smul_right] at h
        exact (smul_eq_zero.1 h).resolve_left (hsgn c hc)
      unfold planeAux at h
      split at h
      · rename_i hc
        have := main _ _ (fun h0 => by rw [h0, abs_zero] at hc; exact absurd hc (not_lt.2 (abs_nonneg _))) h
        have e0 := congrFun this 0
        have e1 := congrFun this 1
        have e2 := congrFun this 2
        simp at e0 e1 e2
        rw [dot3]; simp
        linear_combination (-(v1 0)) * e0 - v1 1 * e1 - v1 2 * e2
      · rename_i hc
        have := main _ _ (fun h0 => by
          rw [h0, abs_zero] at hc
          exact hn ⟨abs_nonpos_iff.1 (not_lt.1 hc), h0⟩) h
        have e0 := congrFun this 0
        have e1 := congrFun this 1
        have e2 := congrFun this 2
        simp at e0 e1 e2
        rw [dot3]; simp
        linear_combination v2 0 * e0 + v2 1 * e1 + v2 2 * e2
    obtain ⟨U, R, a1, a2, _, a4, _⟩ := onePeak_core (g := g) (ei := ei) (ef := ef) hb hx m1 h0
    exact ⟨U, a1, a2, a4⟩

end Tavi
