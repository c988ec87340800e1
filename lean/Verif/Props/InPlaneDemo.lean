import Verif.Props.InPlane
import Verif.Props.MountingDemo
import Verif.Props.MirrorDemo

/-! # A concrete case for C111 in the axes of the crystal: the spectrometer of `Demo` and its mirror image at (1,0,0) -/

namespace Tavi

open Matrix Real
open Spec (IsRot PossibleCell len hklOf enOf qform)

namespace Demo

/-- C111: at (1,0,0) with the normal along (0,1,0) the mirror image exchanges `l` and `-l`; so does the reversal, with the energy. -/
example : ∃ e e' e'', (tas "Y,-Z,X" "-").resoAt (some hklAxes) (![1, 0, 0], ksq2eng * (2 * π) ^ 2, ksq2eng * (2 * π) ^ 2) = .ok e ∧
    mirrored.resoAt (some hklAxes) (![1, 0, 0], ksq2eng * (2 * π) ^ 2, ksq2eng * (2 * π) ^ 2) = .ok e' ∧
    (Spec.reversed (tas "Y,-Z,X" "-")).resoAt (some hklAxes) (![1, 0, 0], ksq2eng * (2 * π) ^ 2, ksq2eng * (2 * π) ^ 2) = .ok e'' ∧
    (∀ h k l w, qform e'.mat ![h, k, -l, w] = qform e.mat ![h, k, l, w]) ∧
    (∀ h k l w, qform e''.mat ![h, k, -l, -w] = qform e.mat ![h, k, l, w]) := by
  have hpi := Real.pi_pos
  obtain ⟨M, r0, M', r0', M'', r0'', -, h', h'', _⟩ := mirror_case
  obtain ⟨e, he, hl⟩ := reso_in_plane (hkl := ![1, 0, 0]) (t := tas "Y,-Z,X" "-") rfl (consistent _ _) known rfl (by simp) len100
  have key : ∀ {t : Tas} {m : Mat 4 4} {r : ℝ} {a : MotorAngles}, t.sample.latt = cube → t.motorAngles ![1, 0, 0] = .ok a → a.sgl = some 0 →
      CooperNathans.calculateAt t ![1, 0, 0] (ksq2eng * (2 * π) ^ 2) (ksq2eng * (2 * π) ^ 2) = .ok (m, r) →
      ∃ e, t.resoAt (some hklAxes) (![1, 0, 0], ksq2eng * (2 * π) ^ 2, ksq2eng * (2 * π) ^ 2) = .ok e ∧
      ∀ a x, t.motorAngles ![1, 0, 0] (ksq2eng * (2 * π) ^ 2 - ksq2eng * (2 * π) ^ 2) = .ok a → a.sgl = some x → |x| ≠ 90 := by
    intro t m r a ht ha hs hm
    have ha0 : t.motorAngles ![1, 0, 0] (ksq2eng * (2 * π) ^ 2 - ksq2eng * (2 * π) ^ 2) = .ok a := by rw [sub_self]; exact ha
    obtain ⟨e, he⟩ := C27_defined (t := t) (m := m) (r0 := r) (p1 := ![1, 0, 0]) (p2 := ![0, 1, 0]) (p3 := ![0, 0, 1]) (n := 3)
      (ax := hklAxes) (by rw [ht]; exact cube_possible) ha0 rfl (by simp [hklAxes, enIndex, List.findIdx_cons])
      (by rw [ht]; exact cube_recip)
      (by
        rw [inSpace_triple]
        simp only [dot3, cross]
        simp
        have := Real.two_le_pi
        nlinarith [mul_pos hpi hpi, mul_pos (mul_pos hpi hpi) hpi])
    refine ⟨e, ?_, ?_⟩
    · unfold Tas.resoAt
      dsimp only
      rw [hm, py_bind_ok]
      exact he
    · intro a' x hx hy
      rw [ha0] at hx; cases hx
      rw [hs] at hy; cases hy
      norm_num
  obtain ⟨a', ha', z', _⟩ := C68_in_plane (t := mirrored) (consistent "Y,-Z,X" "+") known rfl (by simp) (huberMode "+") (huberMode' "+") rfl rfl
    (by norm_num [Spec.Within, mirrored, tas]) (by norm_num [Spec.Within, mirrored, tas])
    (energies "Y,-Z,X" "+") (sensePlus "Y,-Z,X") k_val k_val big big (by rw [len100, mul_one]; exact big) closes
  have hE : (Spec.reversed (tas "Y,-Z,X" "-")).getEiEf = .ok (ksq2eng * (2 * π) ^ 2, ksq2eng * (2 * π) ^ 2) := by
    simp [Spec.reversed, tas, Tas.getEiEf]
  obtain ⟨a'', ha'', z'', _⟩ := C68_in_plane (t := Spec.reversed (tas "Y,-Z,X" "-")) (consistent "Y,-Z,X" "-") known rfl (by simp) (huberMode "-")
    (huberMode' "-") rfl rfl (by norm_num [Spec.Within, Spec.reversed, tas]) (by norm_num [Spec.Within, Spec.reversed, tas])
    hE (senseMinus "Y,-Z,X") k_val k_val big big (by rw [len100, mul_one]; exact big) closes
  obtain ⟨e', he', hl'⟩ := key (t := mirrored) rfl ha' z' h'
  obtain ⟨e'', he'', hl''⟩ := key (t := Spec.reversed (tas "Y,-Z,X" "-")) rfl ha'' z'' h''
  have e1 : ∀ x : Fin 4 → ℝ, hklOf ![.vec ![1, 0, 0], .vec ![0, 1, 0], .vec ![0, 0, 1], .name "en".toList] x = ![x 0, x 1, x 2] := by
    intro x
    apply ext3 <;> simp [hklOf, Fin.sum_univ_four]
  have e2 : ∀ x : Fin 4 → ℝ, enOf ![.vec ![1, 0, 0], .vec ![0, 1, 0], .vec ![0, 0, 1], .name "en".toList] x = x 3 := by
    intro x
    simp [enOf, Fin.sum_univ_four]
  obtain ⟨_, _, f1⟩ := C111_mirror_axes mirrored_image (ax := ![.vec ![1, 0, 0], .vec ![0, 1, 0], .vec ![0, 0, 1], .name "en".toList])
    (ax' := ![.vec ![1, 0, 0], .vec ![0, 1, 0], .vec ![0, 0, 1], .name "en".toList])
    (huberMode' _) cube_possible (consistent _ _) rfl (by simp [Spec.len]) (by simp) he he' hl hl'
  obtain ⟨_, _, f2⟩ := C111_reversed_axes (ax := ![.vec ![1, 0, 0], .vec ![0, 1, 0], .vec ![0, 0, 1], .name "en".toList])
    (ax' := ![.vec ![1, 0, 0], .vec ![0, 1, 0], .vec ![0, 0, 1], .name "en".toList]) (by rw [sub_self]; exact energies _ _)
    (huberMode' _) cube_possible (consistent _ _) rfl (by simp [Spec.len]) (by simp) he he'' hl hl''
  have hmir : ∀ h k l w w' : ℝ, Spec.MirrorThroughQ ![0, 1, 0] ((1 : M3) *ᵥ ![1, 0, 0])
      ((1 : M3) *ᵥ hklOf ![.vec ![1, 0, 0], .vec ![0, 1, 0], .vec ![0, 0, 1], .name "en".toList] ![h, k, l, w])
      ((1 : M3) *ᵥ hklOf ![.vec ![1, 0, 0], .vec ![0, 1, 0], .vec ![0, 0, 1], .name "en".toList] ![h, k, -l, w']) := by
    intro h k l w w'
    simp only [Spec.MirrorThroughQ, e1, one_mulVec, dot3, cross]
    simp
  refine ⟨e, e', e'', he, he', he'', fun h k l w => f1 _ _ (hmir h k l w w) ?_, fun h k l w => f2 _ _ (hmir h k l w (-w)) ?_⟩
  · rw [e2, e2]; rfl
  · rw [e2, e2]; rfl

end Demo

end Tavi
