import Verif.Props.Mounting
import Verif.Props.Mirror

/-! # C27 and C111 for reflections in the scattering plane: the resolution in the axes of the crystal, without the laboratory -/

namespace Tavi

open Matrix Real
open Spec (IsRot IsOrth PossibleCell len metric hklOf enOf qform localCoords)

/-- Specification: the components of a vector `d` of the crystal along the momentum transfer `g`, along normal × `g`, and along the
normal `n` of the scattering plane. -/
noncomputable def Spec.crystalCoords (n g d : V3) : V3 := ![d ⬝ᵥ ((len g)⁻¹ • g), d ⬝ᵥ cross n ((len g)⁻¹ • g), d ⬝ᵥ n]

/-- **C27** For a reflection in the scattering plane the matrix in any axes gives to a displacement the value that the matrix of the local frame gives
to its components in the crystal: along Q, along normal × Q, and along the normal of the plane. Neither the goniometer nor the laboratory enters. For
tables without bisecting mode and outside gimbal lock. -/
theorem C27_in_plane {t : Tas} {hkl : V3} {en r0 : ℝ} {ax : Fin 4 → AxisItem} {m : Mat 4 4} {e : Ellipsoid} {c : UBConf} {ub : M3} {n : V3}
    (h : mkEllipsoid t hkl en (some (List.ofFn ax)) m r0 = .ok e) (hmode : t.goni.mode = .ok none)
    (hcons : Spec.Consistent t.sample c ub) (hpn : c.planeNormal = some n) (hn : len n = 1) (hin : n ⬝ᵥ (ub *ᵥ hkl) = 0)
    (hl : ∀ a x, t.motorAngles hkl en = .ok a → a.sgl = some x → |x| ≠ 90) (x : Fin 4 → ℝ) :
    qform e.mat x = qform m
      ![Spec.crystalCoords n (ub *ᵥ hkl) ((2 * π) • (ub *ᵥ hklOf ax x)) 0, Spec.crystalCoords n (ub *ᵥ hkl) ((2 * π) • (ub *ᵥ hklOf ax x)) 1,
        Spec.crystalCoords n (ub *ᵥ hkl) ((2 * π) • (ub *ᵥ hklOf ax x)) 2, enOf ax x] := by
  have hpi := Real.pi_pos
  obtain ⟨a, R, c1, ub1, ei, ef, q, ha, hR, hc1, hub1, he, hq, hq0, hf⟩ := C27_same_form h
  obtain ⟨k1, k2, k3, b, kb, kG⟩ := hcons
  rw [k1] at hc1; cases hc1
  rw [k2] at hub1; cases hub1
  obtain ⟨tt, psi, ei2, ef2, c2, htt, hpsi, he2, hc2, _, hcase⟩ := motorAngles_cases ha
  rw [he] at he2; cases he2
  rw [k1] at hc2; cases hc2
  rw [hmode] at hcase
  rcases hcase with ⟨_, r, hr, hra⟩ | ⟨hx, _⟩
  swap
  · cases hx
  have ht := (motorAngles_twoTheta ha).1
  rw [htt] at ht
  have ett := Except.ok.inj ht
  obtain ⟨ki, kf, hki, hkf, kip, kfp, Qp, _, hqq, e1, e2, _⟩ := C13_q_lab kb he htt hpsi
  rw [e1, e2] at hqq
  have hQe : qNormFromHkl hkl b = 2 * π * len (ub *ᵥ hkl) := by
    rw [qLab_norm_eq, gram_norm kG, norm3_eq_len]
  have hlp : 0 < len (ub *ᵥ hkl) := by
    rw [hQe] at Qp
    by_contra h0
    nlinarith
  have hne : ub *ᵥ hkl ≠ 0 := by
    intro h0
    rw [h0] at hlp
    simp [Spec.len] at hlp
  have hlen := len_polar (qNormFromHkl hkl b) (deg2rad psi) Qp.le
  rw [hQe] at hlen hqq
  rw [← ett, hqq] at hq
  have eq1 := Except.ok.inj hq
  rw [eq1] at hlen hqq
  obtain ⟨Rm, hRm, hRr, hmap, hup, _⟩ := C12_minimal_tilt_partial k2 hpn hn hqq hlen hne (.inl hin)
  rw [hr] at hRm; cases hRm
  have hup := hup hin
  rw [rMat_lock_free hRr hra (fun x hx => hl a x ha hx)] at hR; cases hR
  have hu : (len q)⁻¹ • q = R *ᵥ ((len (ub *ᵥ hkl))⁻¹ • (ub *ᵥ hkl)) := by
    rw [hlen, ← hmap, mulVec_smul, smul_smul]
    congr 1
    field_simp
  have key : ∀ d, localCoords q ((2 * π) • (R *ᵥ d)) = Spec.crystalCoords n (ub *ᵥ hkl) ((2 * π) • d) := by
    intro d
    unfold localCoords Spec.crystalCoords
    rw [hu, ← hup, cross_mulVec_rot hRr, ← mulVec_smul, dot_mulVec_orth hRr.1, dot_mulVec_orth hRr.1, dot_mulVec_orth hRr.1]
  rw [hf x, key]

/-- Components of two displacements that differ in the sign of the component across Q. -/
theorem crystal_mirror {n g d d' : V3} (hx : d' ⬝ᵥ g = d ⬝ᵥ g) (hy : d' ⬝ᵥ n = d ⬝ᵥ n) (hz : d' ⬝ᵥ cross n g = -(d ⬝ᵥ cross n g)) (k : ℝ) :
    Spec.crystalCoords n g (k • d') 0 = Spec.crystalCoords n g (k • d) 0 ∧ Spec.crystalCoords n g (k • d') 1 = -Spec.crystalCoords n g (k • d) 1 ∧
      Spec.crystalCoords n g (k • d') 2 = Spec.crystalCoords n g (k • d) 2 := by
  have hcr : ∀ k : ℝ, cross n (k • g) = k • cross n g := by
    intro k
    apply ext3 <;> simp <;> ring
  refine ⟨?_, ?_, ?_⟩
  · simp only [Spec.crystalCoords, cons_val_zero, smul_dotProduct, dotProduct_smul, hx]
  · simp only [Spec.crystalCoords, cons_val_one, cons_val_zero, hcr, smul_dotProduct, dotProduct_smul, hz, smul_eq_mul]
    ring
  · simp only [Spec.crystalCoords, smul_dotProduct, hy, cons_val]

/-- Specification: the displacement `d'` is the mirror image of `d` through the plane of Q and the normal of the scattering plane. -/
def Spec.MirrorThroughQ (n g d d' : V3) : Prop := d' ⬝ᵥ g = d ⬝ᵥ g ∧ d' ⬝ᵥ n = d ⬝ᵥ n ∧ d' ⬝ᵥ cross n g = -(d ⬝ᵥ cross n g)

/-- **C111** The resolution of the mirror image in the axes of the crystal: for a reflection in the scattering plane it is the mirror image of the
resolution through the plane that holds Q and the normal, in any axes, at the same energy transfer; the prefactor and |Q| are the same. -/
theorem C111_mirror_axes {t t' : Tas} (hm : Spec.MirrorImage t t') {hkl : V3} {ei ef : ℝ} {ax ax' : Fin 4 → AxisItem} {e e' : Ellipsoid}
    {c : UBConf} {ub : M3} {n : V3} (hmode : t.goni.mode = .ok none) (hc : PossibleCell t.sample.latt)
    (hcons : Spec.Consistent t.sample c ub) (hpn : c.planeNormal = some n) (hn : len n = 1) (hin : n ⬝ᵥ (ub *ᵥ hkl) = 0)
    (h : t.resoAt (some (List.ofFn ax)) (hkl, ei, ef) = .ok e) (h' : t'.resoAt (some (List.ofFn ax')) (hkl, ei, ef) = .ok e')
    (hl : ∀ a x, t.motorAngles hkl (ei - ef) = .ok a → a.sgl = some x → |x| ≠ 90)
    (hl' : ∀ a x, t'.motorAngles hkl (ei - ef) = .ok a → a.sgl = some x → |x| ≠ 90) :
    e'.r0 = e.r0 ∧ e'.q = e.q ∧ ∀ x x', Spec.MirrorThroughQ n (ub *ᵥ hkl) (ub *ᵥ hklOf ax x) (ub *ᵥ hklOf ax' x') →
      enOf ax' x' = enOf ax x → qform e'.mat x' = qform e.mat x := by
  have hs : t'.sample = t.sample := by rw [hm.same]
  have hmode' : t'.goni.mode = .ok none := by rw [hm.same]; exact hmode
  unfold Tas.resoAt at h h'
  obtain ⟨⟨m, r0⟩, hm1, h⟩ := py_bind_eq_ok.1 h
  obtain ⟨⟨m', r0'⟩, hm1', h'⟩ := py_bind_eq_ok.1 h'
  dsimp only at hm1 hm1' h h'
  obtain ⟨hf, hr⟩ := C111_mirror hm hm1 hm1'
  obtain ⟨_, _, f0, fq, _⟩ := C27_frame h hc
  obtain ⟨_, _, f0', fq', _⟩ := C27_frame h' (by rw [hs]; exact hc)
  refine ⟨by rw [f0, f0', hr], by rw [fq, fq', hs], fun x x' ⟨hx, hy, hz⟩ hw => ?_⟩
  obtain ⟨a0, a1, a2⟩ := crystal_mirror hx hy hz (2 * π)
  rw [C27_in_plane h hmode hcons hpn hn hin hl x, C27_in_plane h' hmode' (by rw [hs]; exact hcons) hpn hn hin hl' x', ← hf, hw, a0, a1, a2]

/-- **C111** The resolution of the reversed spectrometer at the opposite energy transfer, in the axes of the crystal: the mirror image through the plane of
Q and the normal, at the opposite energy displacement. -/
theorem C111_reversed_axes {t : Tas} {hkl : V3} {ei ef : ℝ} {ax ax' : Fin 4 → AxisItem} {e e' : Ellipsoid}
    {c : UBConf} {ub : M3} {n : V3} (he : t.getEiEf none none (ei - ef) = .ok (ei, ef)) (hmode : t.goni.mode = .ok none)
    (hc : PossibleCell t.sample.latt) (hcons : Spec.Consistent t.sample c ub) (hpn : c.planeNormal = some n) (hn : len n = 1)
    (hin : n ⬝ᵥ (ub *ᵥ hkl) = 0) (h : t.resoAt (some (List.ofFn ax)) (hkl, ei, ef) = .ok e)
    (h' : (Spec.reversed t).resoAt (some (List.ofFn ax')) (hkl, ef, ei) = .ok e')
    (hl : ∀ a x, t.motorAngles hkl (ei - ef) = .ok a → a.sgl = some x → |x| ≠ 90)
    (hl' : ∀ a x, (Spec.reversed t).motorAngles hkl (ef - ei) = .ok a → a.sgl = some x → |x| ≠ 90) :
    e'.r0 = e.r0 ∧ e'.q = e.q ∧ ∀ x x', Spec.MirrorThroughQ n (ub *ᵥ hkl) (ub *ᵥ hklOf ax x) (ub *ᵥ hklOf ax' x') →
      enOf ax' x' = -enOf ax x → qform e'.mat x' = qform e.mat x := by
  unfold Tas.resoAt at h h'
  obtain ⟨⟨m, r0⟩, hm1, h⟩ := py_bind_eq_ok.1 h
  obtain ⟨⟨m', r0'⟩, hm1', h'⟩ := py_bind_eq_ok.1 h'
  dsimp only at hm1 hm1' h h'
  obtain ⟨hf, hr⟩ := C111_reversed he hm1 hm1'
  obtain ⟨_, _, f0, fq, _⟩ := C27_frame h hc
  obtain ⟨_, _, f0', fq', _⟩ := C27_frame h' hc
  refine ⟨by rw [f0, f0', hr], by rw [fq, fq']; rfl, fun x x' ⟨hx, hy, hz⟩ hw => ?_⟩
  obtain ⟨a0, a1, a2⟩ := crystal_mirror hx hy hz (2 * π)
  rw [C27_in_plane h hmode hcons hpn hn hin hl x, C27_in_plane (t := Spec.reversed t) h' hmode hcons hpn hn hin hl' x', ← hf, hw, a0, a1, a2]

end Tavi
