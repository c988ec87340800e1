import Verif.Lemmas.GStar
import Verif.Lemmas.Rot
import Verif.Model.Sample

/-! # C01–C05: lattice, B matrix, reciprocal vectors, UB decomposition, u/v vectors -/

namespace Tavi

open Matrix Real
open Spec (PossibleCell metric IsRot IsOrth len IsAngleDeg)

/-- A concrete skewed (triclinic, all edges different) cell used to show that hypotheses are met. -/
noncomputable def exCell : Latt := ⟨2, 3, 4, 60, 60, 60⟩

theorem exCell_possible : PossibleCell exCell := by
  have h : Real.cos (60 * π / 180) = 1 / 2 := by
    rw [show 60 * π / 180 = π / 3 by ring, Real.cos_pi_div_three]
  constructor <;> simp only [exCell, h] <;> norm_num

/-! ## C01 -/

/-- **C01** Lattice parameters → B matrix → lattice parameters is the identity for every possible cell. -/
theorem C01_lattice_roundtrip {L : Latt} (h : PossibleCell L) :
    (bMatFromLattice L >>= lattFromBMat) = .ok L := by
  rw [bMatFromLattice_ok (trig h)]
  exact lattFromGStar_metric h (bTb_metric (trig h))

example : (bMatFromLattice exCell >>= lattFromBMat) = .ok exCell :=
  C01_lattice_roundtrip exCell_possible

/-- **C01**, other direction: every invertible `B` has lattice parameters, they describe a possible cell, and
the B matrix computed from them agrees with the original one up to a rotation of the crystal frame. -/
theorem C01_b_roundtrip {B : M3} (hB : B.det ≠ 0) :
    ∃ L B', lattFromBMat B = .ok L ∧ PossibleCell L ∧ bMatFromLattice L = .ok B' ∧
      B'ᵀ * B' = Bᵀ * B := by
  obtain ⟨L, h1, h2, h3⟩ := lattFromGStar_of_invertible hB
  refine ⟨L, bClosed (trig h2), h1, h2, bMatFromLattice_ok _, ?_⟩
  have e1 := bTb_metric (trig h2)
  have e2 : metric L * ((bClosed (trig h2))ᵀ * bClosed (trig h2)) = 1 := mul_eq_one_comm.1 e1
  calc _ = (Bᵀ * B * metric L) * ((bClosed (trig h2))ᵀ * bClosed (trig h2)) := by
          rw [h3, Matrix.one_mul]
    _ = Bᵀ * B := by rw [Matrix.mul_assoc, e2, Matrix.mul_one]

/-- An upper triangular matrix with positive diagonal is determined by its Gram matrix. -/
theorem upper_unique {P Q : M3} (hP : P 1 0 = 0 ∧ P 2 0 = 0 ∧ P 2 1 = 0)
    (hQ : Q 1 0 = 0 ∧ Q 2 0 = 0 ∧ Q 2 1 = 0) (p0 : 0 < P 0 0) (p1 : 0 < P 1 1) (p2 : 0 < P 2 2)
    (q0 : 0 < Q 0 0) (q1 : 0 < Q 1 1) (q2 : 0 < Q 2 2) (h : Pᵀ * P = Qᵀ * Q) : P = Q := by
  have e : ∀ i j, (Pᵀ * P) i j = (Qᵀ * Q) i j := fun i j => by rw [h]
  have e00 := e 0 0; have e01 := e 0 1; have e02 := e 0 2
  have e11 := e 1 1; have e12 := e 1 2; have e22 := e 2 2
  simp [Matrix.mul_apply, Fin.sum_univ_three, hP, hQ] at e00 e01 e02 e11 e12 e22
  have h00 : P 0 0 = Q 0 0 := (mul_self_inj p0.le q0.le).1 e00
  rw [h00] at e01 e02
  have h01 : P 0 1 = Q 0 1 := mul_left_cancel₀ q0.ne' e01
  have h02 : P 0 2 = Q 0 2 := mul_left_cancel₀ q0.ne' e02
  rw [h01] at e11 e12
  have h11 : P 1 1 = Q 1 1 := (mul_self_inj p1.le q1.le).1 (by linarith)
  rw [h02, h11] at e12
  have h12 : P 1 2 = Q 1 2 := mul_left_cancel₀ q1.ne' (by linarith)
  rw [h02, h12] at e22
  have h22 : P 2 2 = Q 2 2 := (mul_self_inj p2.le q2.le).1 (by linarith)
  ext i j
  fin_cases i <;> fin_cases j
  · exact h00
  · exact h01
  · exact h02
  · exact hP.1.trans hQ.1.symm
  · exact h11
  · exact h12
  · exact hP.2.1.trans hQ.2.1.symm
  · exact hP.2.2.trans hQ.2.2.symm
  · exact h22

theorem bClosed_upper {L : Latt} (T : Trig L) :
    (bClosed T 1 0 = 0 ∧ bClosed T 2 0 = 0 ∧ bClosed T 2 1 = 0) ∧
      0 < bClosed T 0 0 ∧ 0 < bClosed T 1 1 ∧ 0 < bClosed T 2 2 := by
  have := T.a0; have := T.b0; have := T.c0; have := T.v0; have := T.sa0
  refine ⟨by simp [bClosed], ?_, ?_, ?_⟩ <;> simp only [bClosed] <;> simp <;> positivity

/-- **C01** An upper triangular `B` with positive diagonal (the form the code produces) is recovered exactly. -/
theorem C01_upper_b_roundtrip {B : M3} (hU : B 1 0 = 0 ∧ B 2 0 = 0 ∧ B 2 1 = 0)
    (h0 : 0 < B 0 0) (h1 : 0 < B 1 1) (h2 : 0 < B 2 2) :
    (lattFromBMat B >>= bMatFromLattice) = .ok B := by
  have hdet : B.det ≠ 0 := by
    rw [Matrix.det_fin_three, hU.1, hU.2.1, hU.2.2]
    have : 0 < B 0 0 * B 1 1 * B 2 2 := by positivity
    simp only [mul_zero, zero_mul, sub_zero, add_zero]; exact this.ne'
  obtain ⟨L, k1, k2, k3⟩ := lattFromGStar_of_invertible hdet
  have e1 := bTb_metric (trig k2)
  have e2 : metric L * ((bClosed (trig k2))ᵀ * bClosed (trig k2)) = 1 := mul_eq_one_comm.1 e1
  have e3 : (bClosed (trig k2))ᵀ * bClosed (trig k2) = Bᵀ * B :=
    calc _ = (Bᵀ * B * metric L) * ((bClosed (trig k2))ᵀ * bClosed (trig k2)) := by
            rw [k3, Matrix.one_mul]
      _ = Bᵀ * B := by rw [Matrix.mul_assoc, e2, Matrix.mul_one]
  have hb := bClosed_upper (trig k2)
  have : bClosed (trig k2) = B :=
    upper_unique hb.1 hU hb.2.1 hb.2.2.1 hb.2.2.2 h0 h1 h2 e3
  show (lattFromGStar (Bᵀ * B) >>= bMatFromLattice) = .ok B
  rw [k1, py_bind_ok, bMatFromLattice_ok (trig k2), this]

example : (lattFromBMat !![0.5, 0.1, -0.2; 0, 0.3, 0.1; 0, 0, 0.25] >>= bMatFromLattice)
    = .ok !![0.5, 0.1, -0.2; 0, 0.3, 0.1; 0, 0, 0.25] := by
  apply C01_upper_b_roundtrip <;> simp <;> norm_num

/-- The silent fallback: a singular matrix yields the unit cube, not an error. -/
theorem C01_singular_fallback {B : M3} (hB : B.det = 0) : lattFromBMat B = .ok ⟨1, 1, 1, 90, 90, 90⟩ := by
  have : (Bᵀ * B).det = 0 := by rw [Matrix.det_mul, hB, mul_zero]
  unfold lattFromBMat lattFromGStar inv3
  rw [if_pos this]
  have hpi := Real.pi_ne_zero
  simp [pySqrt, pyDiv, pyArccos, rad2deg]
  norm_num

/-! ## C02 -/

/-- **C02** `Bᵀ B` is the inverse of the metric tensor. -/
theorem C02_gram {L : Latt} (h : PossibleCell L) :
    ∃ B, bMatFromLattice L = .ok B ∧ Bᵀ * B = (metric L)⁻¹ := by
  refine ⟨bClosed (trig h), bMatFromLattice_ok _, ?_⟩
  exact (Matrix.inv_eq_left_inv (bTb_metric (trig h))).symm

theorem dot_gram (B : M3) (v : V3) : (B *ᵥ v) ⬝ᵥ (B *ᵥ v) = v ⬝ᵥ ((Bᵀ * B) *ᵥ v) := by
  simp only [dot3, mulVec3, Matrix.mul_apply, Fin.sum_univ_three, Matrix.transpose_apply]; ring

theorem realSpaceVectors_ok {L : Latt} (T : Trig L) : realSpaceVectors L =
    .ok (![L.a, 0, 0], ![L.b * T.cg, L.b * T.sg, 0],
      ![L.c * T.cb, L.c * (T.ca - T.cg * T.cb) / T.sg, L.c * T.v / T.sg]) := by
  unfold realSpaceVectors
  simp only [T.hca, T.hcb, T.hcg, T.hsg, T.hv, py_bind_ok, pyDiv_ok T.sg0.ne', py_pure]

/-- Closed form of the real space vectors (rows). -/
noncomputable def dClosed {L : Latt} (T : Trig L) : M3 :=
  !![L.a, 0, 0; L.b * T.cg, L.b * T.sg, 0;
     L.c * T.cb, L.c * (T.ca - T.cg * T.cb) / T.sg, L.c * T.v / T.sg]

/-- Closed form of the reciprocal vectors divided by 2π (columns). -/
noncomputable def rA {L : Latt} (T : Trig L) : V3 :=
  ![1 / L.a, -(T.cg / (L.a * T.sg)), (T.cg * T.ca - T.cb) / (L.a * T.v * T.sg)]
noncomputable def rB {L : Latt} (T : Trig L) : V3 :=
  ![0, 1 / (L.b * T.sg), (T.cg * T.cb - T.ca) / (L.b * T.v * T.sg)]
noncomputable def rC {L : Latt} (T : Trig L) : V3 := ![0, 0, T.sg / (L.c * T.v)]

theorem d_mul_r {L : Latt} (T : Trig L) : dClosed T * colMat (rA T) (rB T) (rC T) = 1 := by
  have := T.a0.ne'; have := T.b0.ne'; have := T.c0.ne'; have := T.v0.ne'; have := T.sg0.ne'
  have e := T.eg
  ext i j
  fin_cases i <;> fin_cases j <;>
    simp [dClosed, colMat, rA, rB, rC, Matrix.mul_apply, Fin.sum_univ_three] <;> field_simp <;>
    first | ring1 | linear_combination (L.c * T.cb) * e

theorem d_mul_dT {L : Latt} (T : Trig L) : dClosed T * (dClosed T)ᵀ = metric L := by
  have := T.sg0.ne'
  have e := T.eg
  have ev := T.ev
  ext i j
  fin_cases i <;> fin_cases j <;>
    simp [dClosed, metric, T.hma, T.hmb, T.hmg, Matrix.mul_apply, Fin.sum_univ_three] <;>
    field_simp <;>
    first
    | ring1
    | linear_combination (L.b ^ 2) * e
    | linear_combination (L.c ^ 2) * ev + (L.c ^ 2 * T.cb ^ 2 - L.c ^ 2) * e

theorem r_gram {L : Latt} (T : Trig L) :
    (colMat (rA T) (rB T) (rC T))ᵀ * colMat (rA T) (rB T) (rC T) = (metric L)⁻¹ := by
  symm
  apply Matrix.inv_eq_left_inv
  rw [← d_mul_dT T]
  set D := dClosed T
  set R := colMat (rA T) (rB T) (rC T)
  have h : D * R = 1 := d_mul_r T
  have h' : R * D = 1 := mul_eq_one_comm.1 h
  calc Rᵀ * R * (D * Dᵀ) = Rᵀ * (R * D) * Dᵀ := by simp only [Matrix.mul_assoc]
    _ = 1 := by rw [h', Matrix.mul_one, ← Matrix.transpose_mul, h, Matrix.transpose_one]

theorem reciprocalSpaceVectors_ok {L : Latt} (T : Trig L) : reciprocalSpaceVectors L =
    .ok ((2 * π) • rA T, (2 * π) • rB T, (2 * π) • rC T) := by
  have := T.a0.ne'; have := T.b0.ne'; have := T.c0.ne'; have := T.v0.ne'; have := T.sg0.ne'
  have e := T.eg
  have hne : T.v * L.a * L.b * L.c ≠ 0 := by simp [*]
  unfold reciprocalSpaceVectors
  rw [realSpaceVectors_ok T]
  simp only [T.hv, py_bind_ok, pyDiv_ok hne, py_pure]
  congr 1
  refine Prod.ext ?_ (Prod.ext ?_ ?_)
  · apply ext3 <;> simp [rA] <;> field_simp
    linear_combination (-T.cb) * e
  · apply ext3 <;> simp [rB] <;> field_simp
    ring
  · apply ext3 <;> simp [rC] <;> field_simp

/-- **C02** Both ways of computing |Q| agree with the textbook value `2π √(hklᵀ G⁻¹ hkl)`. -/
theorem C02_q_norm {s : Sample} (h : PossibleCell s.latt) (hkl : V3) :
    ∃ B, s.bMat = .ok B ∧
      qNormFromHkl hkl B = 2 * π * √(hkl ⬝ᵥ ((metric s.latt)⁻¹ *ᵥ hkl)) ∧
      s.getQNorm hkl = .ok (2 * π * √(hkl ⬝ᵥ ((metric s.latt)⁻¹ *ᵥ hkl))) := by
  have T := trig h
  refine ⟨bClosed T, bMatFromLattice_ok _, ?_, ?_⟩
  · unfold qNormFromHkl
    rw [dot_gram, Matrix.inv_eq_left_inv (bTb_metric T)]; ring
  · unfold Sample.getQNorm
    rw [reciprocalSpaceVectors_ok T]
    simp only [py_bind_ok, py_pure, Except.ok.injEq]
    have hpi := Real.pi_pos
    have e : hkl 0 • (2 * π) • rA T + hkl 1 • (2 * π) • rB T + hkl 2 • (2 * π) • rC T
        = (2 * π) • (colMat (rA T) (rB T) (rC T) *ᵥ hkl) := by
      rw [colMat_mulVec]; module
    rw [e, norm3_smul, abs_of_pos (by positivity)]
    unfold norm3
    rw [dot_gram, r_gram]

example (hkl : V3) : ∃ B, (Sample.mk exCell none 30 30).bMat = .ok B ∧
    qNormFromHkl hkl B = 2 * π * √(hkl ⬝ᵥ ((metric exCell)⁻¹ *ᵥ hkl)) :=
  let ⟨B, h1, h2, _⟩ := C02_q_norm (s := Sample.mk exCell none 30 30) exCell_possible hkl
  ⟨B, h1, h2⟩

/-! ## C03 -/

theorem len_eq (v : V3) {x : ℝ} (hx : 0 ≤ x) (h : v ⬝ᵥ v = x ^ 2) : len v = x := by
  rw [← norm3_eq_len]; unfold norm3; rw [h, Real.sqrt_sq hx]

theorem row_dot (D : M3) (i j : Fin 3) : (D * Dᵀ) i j = D i ⬝ᵥ D j := by
  simp [Matrix.mul_apply, dotProduct]

/-- **C03** The real space vectors have the stated lengths and enclose the stated angles. -/
theorem C03_real_vectors {L : Latt} (h : PossibleCell L) :
    ∃ va vb vc, realSpaceVectors L = .ok (va, vb, vc) ∧
      len va = L.a ∧ len vb = L.b ∧ len vc = L.c ∧
      IsAngleDeg vb vc L.alpha ∧ IsAngleDeg va vc L.beta ∧ IsAngleDeg va vb L.gamma ∧
      0 < cross va vb ⬝ᵥ vc := by
  have T := trig h
  have g : ∀ i j, dClosed T i ⬝ᵥ dClosed T j = metric L i j := fun i j => by
    rw [← row_dot, d_mul_dT]
  have e0 : dClosed T 0 = ![L.a, 0, 0] := by apply ext3 <;> simp [dClosed]
  have e1 : dClosed T 1 = ![L.b * T.cg, L.b * T.sg, 0] := by apply ext3 <;> simp [dClosed]
  have e2 : dClosed T 2 = ![L.c * T.cb, L.c * (T.ca - T.cg * T.cb) / T.sg, L.c * T.v / T.sg] := by
    apply ext3 <;> simp [dClosed]
  have l0 : len (dClosed T 0) = L.a := len_eq _ T.a0.le (by rw [g]; simp [metric])
  have l1 : len (dClosed T 1) = L.b := len_eq _ T.b0.le (by rw [g]; simp [metric])
  have l2 : len (dClosed T 2) = L.c := len_eq _ T.c0.le (by rw [g]; simp [metric])
  have a12 : IsAngleDeg (dClosed T 1) (dClosed T 2) L.alpha :=
    ⟨T.alpha0, T.alpha1, by rw [← dot3, g, l1, l2]; simp [metric]⟩
  have a02 : IsAngleDeg (dClosed T 0) (dClosed T 2) L.beta :=
    ⟨T.beta0, T.beta1, by rw [← dot3, g, l0, l2]; simp [metric]⟩
  have a01 : IsAngleDeg (dClosed T 0) (dClosed T 1) L.gamma :=
    ⟨T.gamma0, T.gamma1, by rw [← dot3, g, l0, l1]; simp [metric]⟩
  refine ⟨dClosed T 0, dClosed T 1, dClosed T 2, ?_, l0, l1, l2, a12, a02, a01, ?_⟩
  · rw [realSpaceVectors_ok T, e0, e1, e2]
  · have := T.a0; have := T.b0; have := T.c0; have := T.v0; have := T.sg0
    have e : cross (dClosed T 0) (dClosed T 1) ⬝ᵥ dClosed T 2 = L.a * L.b * L.c * T.v := by
      simp [dot3, dClosed]; field_simp
    rw [e]; positivity

example : ∃ va vb vc, realSpaceVectors exCell = .ok (va, vb, vc) ∧ len vb = 3 ∧
    IsAngleDeg vb vc 60 :=
  let ⟨va, vb, vc, h, _, h2, _, h4, _⟩ := C03_real_vectors exCell_possible
  ⟨va, vb, vc, h, h2, h4⟩

/-- **C03** Real and reciprocal vectors are dual: `a_i · a*_j = 2π δ_ij`. -/
theorem C03_duality {L : Latt} (h : PossibleCell L) :
    ∃ va vb vc ra rb rc, realSpaceVectors L = .ok (va, vb, vc) ∧
      reciprocalSpaceVectors L = .ok (ra, rb, rc) ∧
      va ⬝ᵥ ra = 2 * π ∧ va ⬝ᵥ rb = 0 ∧ va ⬝ᵥ rc = 0 ∧
      vb ⬝ᵥ ra = 0 ∧ vb ⬝ᵥ rb = 2 * π ∧ vb ⬝ᵥ rc = 0 ∧
      vc ⬝ᵥ ra = 0 ∧ vc ⬝ᵥ rb = 0 ∧ vc ⬝ᵥ rc = 2 * π := by
  have T := trig h
  have k : ∀ i j, (dClosed T * colMat (rA T) (rB T) (rC T)) i j = (1 : M3) i j := fun i j => by
    rw [d_mul_r]
  have e0 : dClosed T 0 = ![L.a, 0, 0] := by apply ext3 <;> simp [dClosed]
  have e1 : dClosed T 1 = ![L.b * T.cg, L.b * T.sg, 0] := by apply ext3 <;> simp [dClosed]
  have e2 : dClosed T 2 = ![L.c * T.cb, L.c * (T.ca - T.cg * T.cb) / T.sg, L.c * T.v / T.sg] := by
    apply ext3 <;> simp [dClosed]
  have c0 : ∀ i, (dClosed T * colMat (rA T) (rB T) (rC T)) i 0 = dClosed T i ⬝ᵥ rA T := fun i => by
    simp [Matrix.mul_apply, Fin.sum_univ_three, colMat, dot3]
  have c1 : ∀ i, (dClosed T * colMat (rA T) (rB T) (rC T)) i 1 = dClosed T i ⬝ᵥ rB T := fun i => by
    simp [Matrix.mul_apply, Fin.sum_univ_three, colMat, dot3]
  have c2 : ∀ i, (dClosed T * colMat (rA T) (rB T) (rC T)) i 2 = dClosed T i ⬝ᵥ rC T := fun i => by
    simp [Matrix.mul_apply, Fin.sum_univ_three, colMat, dot3]
  refine ⟨dClosed T 0, dClosed T 1, dClosed T 2, (2 * π) • rA T, (2 * π) • rB T, (2 * π) • rC T,
    ?_, reciprocalSpaceVectors_ok T, ?_⟩
  · rw [realSpaceVectors_ok T, e0, e1, e2]
  · simp only [dotProduct_smul, ← c0, ← c1, ← c2, k]
    simp

/-- Closed form of the reciprocal metric. -/
noncomputable def kClosed {L : Latt} (T : Trig L) : M3 :=
  !![T.sa ^ 2 / (L.a ^ 2 * T.v ^ 2), (T.ca * T.cb - T.cg) / (L.a * L.b * T.v ^ 2),
      (T.cg * T.ca - T.cb) / (L.a * L.c * T.v ^ 2);
     (T.ca * T.cb - T.cg) / (L.a * L.b * T.v ^ 2), T.sb ^ 2 / (L.b ^ 2 * T.v ^ 2),
      (T.cb * T.cg - T.ca) / (L.b * L.c * T.v ^ 2);
     (T.cg * T.ca - T.cb) / (L.a * L.c * T.v ^ 2), (T.cb * T.cg - T.ca) / (L.b * L.c * T.v ^ 2),
      T.sg ^ 2 / (L.c ^ 2 * T.v ^ 2)]

theorem k_metric {L : Latt} (T : Trig L) : kClosed T * metric L = 1 := by
  have := T.a0.ne'; have := T.b0.ne'; have := T.c0.ne'; have := T.v0.ne'
  have ea := T.ea; have eb := T.eb; have eg := T.eg; have ev := T.ev
  ext i j
  fin_cases i <;> fin_cases j <;>
    simp [kClosed, metric, T.hma, T.hmb, T.hmg, Matrix.mul_apply, Fin.sum_univ_three] <;>
    field_simp <;>
    first
    | ring1
    | linear_combination ea - ev
    | linear_combination eb - ev
    | linear_combination eg - ev
    | linear_combination (L.b * T.cg) * ea
    | linear_combination (L.c * T.cb) * ea
    | linear_combination (L.a * T.cg) * eb
    | linear_combination (L.c * T.ca) * eb
    | linear_combination (L.a * T.cb) * eg
    | linear_combination (L.b * T.ca) * eg

/-- **C03** The reported reciprocal lattice parameters are the lengths of, and angles between, the reciprocal
vectors. -/
theorem C03_reciprocal_params {L : Latt} (h : PossibleCell L) :
    ∃ ra rb rc P, reciprocalSpaceVectors L = .ok (ra, rb, rc) ∧ reciprocalLattParams L = .ok P ∧
      len ra = P.a ∧ len rb = P.b ∧ len rc = P.c ∧
      IsAngleDeg rb rc P.alpha ∧ IsAngleDeg ra rc P.beta ∧ IsAngleDeg ra rb P.gamma := by
  have T := trig h
  have h1 := star_cos (x := T.ca) (y := T.cb) (z := T.cg) T.sb0 T.sg0 T.v0 T.eb T.eg (by rw [T.ev])
  have h2 := star_cos (x := T.cb) (y := T.ca) (z := T.cg) T.sa0 T.sg0 T.v0 T.ea T.eg
    (by rw [T.ev]; ring)
  have h3 := star_cos (x := T.cg) (y := T.cb) (z := T.ca) T.sb0 T.sa0 T.v0 T.eb T.ea
    (by rw [T.ev]; ring)
  rw [mul_comm T.ca T.cg] at h2
  rw [mul_comm T.cb T.ca] at h3
  have hpi := Real.pi_pos
  have ha := T.a0; have hb := T.b0; have hc := T.c0; have hv := T.v0
  have hsa := T.sa0; have hsb := T.sb0; have hsg := T.sg0
  have hk : (colMat (rA T) (rB T) (rC T))ᵀ * colMat (rA T) (rB T) (rC T) = kClosed T := by
    rw [r_gram, Matrix.inv_eq_left_inv (k_metric T)]
  rw [colMat_transpose_mul] at hk
  have k00 : rA T ⬝ᵥ rA T = kClosed T 0 0 := by rw [← hk]; simp
  have k11 : rB T ⬝ᵥ rB T = kClosed T 1 1 := by rw [← hk]; simp
  have k22 : rC T ⬝ᵥ rC T = kClosed T 2 2 := by rw [← hk]; simp
  have k01 : rA T ⬝ᵥ rB T = kClosed T 0 1 := by rw [← hk]; simp
  have k02 : rA T ⬝ᵥ rC T = kClosed T 0 2 := by rw [← hk]; simp
  have k12 : rB T ⬝ᵥ rC T = kClosed T 1 2 := by rw [← hk]; simp
  have l0 : len ((2 * π) • rA T) = T.sa / L.a / T.v * π * 2 := by
    apply len_eq _ (by positivity)
    simp only [smul_dotProduct, dotProduct_smul, k00, smul_eq_mul]; simp [kClosed]; field_simp
  have l1 : len ((2 * π) • rB T) = T.sb / L.b / T.v * π * 2 := by
    apply len_eq _ (by positivity)
    simp only [smul_dotProduct, dotProduct_smul, k11, smul_eq_mul]; simp [kClosed]; field_simp
  have l2 : len ((2 * π) • rC T) = T.sg / L.c / T.v * π * 2 := by
    apply len_eq _ (by positivity)
    simp only [smul_dotProduct, dotProduct_smul, k22, smul_eq_mul]; simp [kClosed]; field_simp
  have rng : ∀ x : ℝ, 0 ≤ rad2deg (arccos x) ∧ rad2deg (arccos x) ≤ 180 := by
    intro x
    have := Real.arccos_nonneg x; have := Real.arccos_le_pi x
    unfold rad2deg
    refine ⟨by positivity, ?_⟩
    calc arccos x * (180 / π) ≤ π * (180 / π) := by gcongr
      _ = 180 := by field_simp
  refine ⟨_, _, _, _, reciprocalSpaceVectors_ok T, reciprocalLattParams_ok T, l0, l1, l2,
    ⟨(rng _).1, (rng _).2, ?_⟩, ⟨(rng _).1, (rng _).2, ?_⟩, ⟨(rng _).1, (rng _).2, ?_⟩⟩
  · rw [← dot3, l1, l2, ← deg2rad_eq, deg2rad_rad2deg, Real.cos_arccos h1.1 h1.2.1]
    simp only [smul_dotProduct, dotProduct_smul, k12, smul_eq_mul]; simp [kClosed]; field_simp
  · rw [← dot3, l0, l2, ← deg2rad_eq, deg2rad_rad2deg, Real.cos_arccos h2.1 h2.2.1]
    simp only [smul_dotProduct, dotProduct_smul, k02, smul_eq_mul]; simp [kClosed]; field_simp
  · rw [← dot3, l0, l1, ← deg2rad_eq, deg2rad_rad2deg, Real.cos_arccos h3.1 h3.2.1]
    simp only [smul_dotProduct, dotProduct_smul, k01, smul_eq_mul]; simp [kClosed]; field_simp

/-- **C03** `reciprocal_basis` is a right-handed orthonormal frame with `i*` along `a*` and `j*` in the
`a* b*` plane, on the side of `b*`. -/
theorem C03_reciprocal_basis {L : Latt} (h : PossibleCell L) :
    ∃ ra rb rc i j k, reciprocalSpaceVectors L = .ok (ra, rb, rc) ∧
      reciprocalBasis L = .ok (i, j, k) ∧ IsRot (colMat i j k) ∧
      ra = len ra • i ∧ rb ⬝ᵥ k = 0 ∧ 0 < rb ⬝ᵥ j := by
  have T := trig h
  have hpi := Real.pi_pos
  have ha := T.a0; have hb := T.b0; have hc := T.c0; have hv := T.v0; have hsg := T.sg0
  set ra := (2 * π) • rA T with hra
  set rb := (2 * π) • rB T with hrb
  have hcr : cross ra rb ≠ 0 := by
    intro h0
    have h2 := congrFun h0 2
    simp [hra, hrb, rA, rB] at h2
    rcases h2 with h2 | h2 | h2 <;> linarith
  obtain ⟨t1, t2, t3, t4, t5⟩ := triple_facts hcr
  have hrot := triple_rot hcr
  have hk : cross (nrm ra) (nrm (cross (cross ra rb) ra)) = nrm (cross ra rb) := by
    have e2 : cross (nrm ra) (nrm (cross (cross ra rb) ra))
        = nrm (cross ra (cross (cross ra rb) ra)) := by
      unfold nrm
      rw [cross_smul_left, cross_smul_right, smul_smul, norm3_cross_of_perp t3, mul_inv]
    rw [e2]
    conv_rhs => rw [t4]
    exact (unit_smul_pos t5 _).symm
  refine ⟨ra, rb, _, nrm ra, nrm (cross (cross ra rb) ra), nrm (cross ra rb),
    reciprocalSpaceVectors_ok T, ?_, hrot, ?_, ?_, ?_⟩
  · unfold reciprocalBasis
    rw [reciprocalSpaceVectors_ok T]
    simp only [py_bind_ok]
    rw [← hra, ← hrb, unit_nrm t1, unit_nrm t2]
    simp only [py_bind_ok, py_pure, hk]
  · rw [← norm3_eq_len, norm3_smul_nrm t1]
  · unfold nrm; rw [dotProduct_smul, dot_cross_right, smul_zero]
  · unfold nrm; rw [dotProduct_smul, smul_eq_mul]
    have e : rb ⬝ᵥ cross (cross ra rb) ra = cross ra rb ⬝ᵥ cross ra rb := by simp [dot3]; ring
    rw [e]
    exact mul_pos (inv_pos.2 (norm3_pos t2)) (dot_self_pos hcr)

/-! ## C04 -/

theorem uMat_core {ub : M3} (h : ub.det ≠ 0) :
    ∃ U B, bMatFromUb ub = .ok B ∧ uMatFromUb ub = .ok U ∧ IsOrth U ∧ U * B = ub ∧ 0 < B.det ∧
      (B 1 0 = 0 ∧ B 2 0 = 0 ∧ B 2 1 = 0) ∧ 0 < B 0 0 ∧ 0 < B 1 1 ∧ 0 < B 2 2 := by
  obtain ⟨L, h1, h2, h3⟩ := lattFromGStar_of_invertible h
  have e1 := bTb_metric (trig h2)
  have e2 : metric L * ((bClosed (trig h2))ᵀ * bClosed (trig h2)) = 1 := mul_eq_one_comm.1 e1
  set B := bClosed (trig h2) with hB
  have e3 : Bᵀ * B = ubᵀ * ub :=
    calc _ = (ubᵀ * ub * metric L) * (Bᵀ * B) := by rw [h3, Matrix.one_mul]
      _ = ubᵀ * ub := by rw [Matrix.mul_assoc, e2, Matrix.mul_one]
  have hb := bClosed_upper (trig h2)
  rw [← hB] at hb
  have hdet : 0 < B.det := by
    rw [Matrix.det_fin_three, hb.1.1, hb.1.2.1, hb.1.2.2]
    have := hb.2.1; have := hb.2.2.1; have := hb.2.2.2
    have : 0 < B 0 0 * B 1 1 * B 2 2 := by positivity
    simp only [mul_zero, zero_mul, sub_zero, add_zero]; exact this
  have hBi : B * B⁻¹ = 1 := Matrix.mul_nonsing_inv _ (isUnit_iff_ne_zero.2 hdet.ne')
  have hiB : B⁻¹ * B = 1 := Matrix.nonsing_inv_mul _ (isUnit_iff_ne_zero.2 hdet.ne')
  have hbu : bMatFromUb ub = .ok B := by
    unfold bMatFromUb; rw [h1, py_bind_ok, bMatFromLattice_ok (trig h2)]
  refine ⟨ub * B⁻¹, B, hbu, ?_, ?_, ?_, hdet, hb.1, hb.2⟩
  · unfold uMatFromUb; rw [hbu, py_bind_ok, inv3_ok hdet.ne']; rfl
  · unfold IsOrth
    rw [Matrix.transpose_mul]
    calc B⁻¹ᵀ * ubᵀ * (ub * B⁻¹) = B⁻¹ᵀ * (ubᵀ * ub) * B⁻¹ := by simp only [Matrix.mul_assoc]
      _ = (B⁻¹ᵀ * Bᵀ) * (B * B⁻¹) := by rw [← e3]; simp only [Matrix.mul_assoc]
      _ = 1 := by rw [hBi, ← Matrix.transpose_mul, hBi]; simp
  · rw [Matrix.mul_assoc, hiB, Matrix.mul_one]

/-- **C04** Every invertible UB matrix splits into `U · B` with `U` orthogonal and `B` upper triangular with
positive diagonal; `U` is a proper rotation exactly when `det UB > 0`. -/
theorem C04_ub_decomposition {ub : M3} (h : ub.det ≠ 0) :
    ∃ U B, bMatFromUb ub = .ok B ∧ uMatFromUb ub = .ok U ∧ IsOrth U ∧ U * B = ub ∧
      (B 1 0 = 0 ∧ B 2 0 = 0 ∧ B 2 1 = 0) ∧ 0 < B 0 0 ∧ 0 < B 1 1 ∧ 0 < B 2 2 ∧
      (IsRot U ↔ 0 < ub.det) := by
  obtain ⟨U, B, h1, h2, h3, h4, h5, h6, h7, h8, h9⟩ := uMat_core h
  refine ⟨U, B, h1, h2, h3, h4, h6, h7, h8, h9, ?_⟩
  have hd : U.det * B.det = ub.det := by rw [← Matrix.det_mul, h4]
  constructor
  · intro hr; rw [← hd, hr.2, one_mul]; exact h5
  · intro hp
    refine ⟨h3, ?_⟩
    have hU : 0 < U.det := by rw [← hd] at hp; exact (pos_iff_pos_of_mul_pos hp).2 h5
    nlinarith [isOrth_det h3]

/-- **C04** If UB is known to be a rotation times the B matrix of a possible cell, exactly these are
recovered. -/
theorem C04_recovers {L : Latt} (hL : PossibleCell L) {B U : M3} (hB : bMatFromLattice L = .ok B)
    (hU : IsOrth U) :
    ubMatrixToLattice (U * B) = .ok L ∧ bMatFromUb (U * B) = .ok B ∧ uMatFromUb (U * B) = .ok U := by
  have hBc : B = bClosed (trig hL) := by
    rw [bMatFromLattice_ok (trig hL)] at hB; exact (Except.ok.inj hB).symm
  have hg : (U * B)ᵀ * (U * B) * metric L = 1 := by
    have : (U * B)ᵀ * (U * B) = Bᵀ * B := by
      rw [Matrix.transpose_mul]
      calc Bᵀ * Uᵀ * (U * B) = Bᵀ * (Uᵀ * U) * B := by simp only [Matrix.mul_assoc]
        _ = Bᵀ * B := by rw [hU, Matrix.mul_one]
    rw [this, hBc]; exact bTb_metric _
  have hlat := lattFromGStar_metric hL hg
  have hb : bMatFromUb (U * B) = .ok B := by
    unfold bMatFromUb; rw [hlat, py_bind_ok, hB]
  have hdet : B.det ≠ 0 := by
    intro h0
    have := congrArg Matrix.det (b_mul_a (trig hL))
    rw [Matrix.det_mul, ← hBc, h0, zero_mul, Matrix.det_one] at this
    exact zero_ne_one this
  refine ⟨hlat, hb, ?_⟩
  unfold uMatFromUb
  rw [hb, py_bind_ok, inv3_ok hdet, py_bind_ok, py_pure, Matrix.mul_assoc,
    Matrix.mul_nonsing_inv _ (isUnit_iff_ne_zero.2 hdet), Matrix.mul_one]

/-- **C04** Lattice parameters do not change when the crystal is rotated. -/
theorem C04_lattice_rotation_invariant (ub R : M3) (hR : IsOrth R) :
    ubMatrixToLattice (R * ub) = ubMatrixToLattice ub := by
  unfold ubMatrixToLattice
  congr 1
  rw [Matrix.transpose_mul]
  calc ubᵀ * Rᵀ * (R * ub) = ubᵀ * (Rᵀ * R) * ub := by simp only [Matrix.mul_assoc]
    _ = ubᵀ * ub := by rw [hR, Matrix.mul_one]

example : ∃ U B, bMatFromUb !![0, 1, 2; 1, 0, 3; 0, 0, 5] = .ok B ∧
    uMatFromUb !![0, 1, 2; 1, 0, 3; 0, 0, 5] = .ok U ∧ IsOrth U ∧
    U * B = !![0, 1, 2; 1, 0, 3; 0, 0, 5] :=
  let ⟨U, B, h1, h2, h3, h4, _⟩ :=
    C04_ub_decomposition (ub := !![0, 1, 2; 1, 0, 3; 0, 0, 5]) (by simp [Matrix.det_fin_three])
  ⟨U, B, h1, h2, h3, h4⟩

/-! ## C05 -/

theorem b_det_ne {L : Latt} (hL : PossibleCell L) {B : M3} (hB : bMatFromLattice L = .ok B) :
    B.det ≠ 0 := by
  have hBc : B = bClosed (trig hL) := by
    rw [bMatFromLattice_ok (trig hL)] at hB; exact (Except.ok.inj hB).symm
  intro h0
  have := congrArg Matrix.det (b_mul_a (trig hL))
  rw [Matrix.det_mul, ← hBc, h0, zero_mul, Matrix.det_one] at this
  exact zero_ne_one this

theorem qFrame_rot : IsRot (colMat ![0, 0, 1] ![1, 0, 0] ![0, 1, 0]) := by
  constructor
  · ext i j
    fin_cases i <;> fin_cases j <;> simp [colMat, Matrix.mul_apply, Fin.sum_univ_three]
  · simp [colMat, Matrix.det_fin_three]

theorem ti_mul (a b : V3) (h : cross a b ≠ 0) :
    let t := colMat (nrm a) (nrm (cross (cross a b) a)) (nrm (cross a b))
    tᵀ *ᵥ a = ![norm3 a, 0, 0] ∧
    tᵀ *ᵥ b = ![nrm a ⬝ᵥ b, nrm (cross (cross a b) a) ⬝ᵥ b, 0] ∧
    0 < nrm (cross (cross a b) a) ⬝ᵥ b := by
  obtain ⟨t1, t2, t3, t4, t5⟩ := triple_facts h
  intro t
  have ht : ∀ w : V3, tᵀ *ᵥ w =
      ![nrm a ⬝ᵥ w, nrm (cross (cross a b) a) ⬝ᵥ w, nrm (cross a b) ⬝ᵥ w] := by
    intro w; apply ext3 <;> simp [t, colMat, mulVec3, dot3]
  refine ⟨?_, ?_, ?_⟩
  · rw [ht]
    have p := norm3_pos t1
    have e0 : nrm a ⬝ᵥ a = norm3 a := by
      unfold nrm; rw [smul_dotProduct, ← norm3_mul_self, smul_eq_mul]; field_simp
    have e1 : nrm (cross (cross a b) a) ⬝ᵥ a = 0 := by
      unfold nrm; rw [smul_dotProduct, dot_comm3, t3, smul_zero]
    have e2 : nrm (cross a b) ⬝ᵥ a = 0 := by
      unfold nrm; rw [smul_dotProduct, dot_comm3, dot_cross_left, smul_zero]
    rw [e0, e1, e2]
  · rw [ht]
    have e2 : nrm (cross a b) ⬝ᵥ b = 0 := by
      unfold nrm; rw [smul_dotProduct, dot_comm3, dot_cross_right, smul_zero]
    rw [e2]
  · have e : cross (cross a b) a ⬝ᵥ b = cross a b ⬝ᵥ cross a b := by simp [dot3]; ring
    unfold nrm
    rw [smul_dotProduct, e, smul_eq_mul]
    exact mul_pos (inv_pos.2 (norm3_pos t2)) (dot_self_pos h)

/-- **C05** The UB matrix made from two independent reciprocal vectors `u`, `v` and a possible cell: it is a
rotation times `B`; it sends `u` to the +z (beam) direction and `v` into the horizontal plane with positive
x component; the cell can be read back; converting it back to `(u', v')` gives `u'` parallel to `u`
(positive factor) and `v'` a combination of `u` and `v` with positive `v` coefficient. -/
theorem C05_uv_ub {L : Latt} (hL : PossibleCell L) {u v : V3} (huv : cross u v ≠ 0) :
    ∃ B U ub, bMatFromLattice L = .ok B ∧ uvToUb u v L = .ok ub ∧ ub = U * B ∧ IsRot U ∧
      (∃ s, 0 < s ∧ ub *ᵥ u = ![0, 0, s]) ∧
      (∃ x z, 0 < x ∧ ub *ᵥ v = ![x, 0, z]) ∧
      ubMatrixToLattice ub = .ok L ∧
      (∃ (u' v' : V3) (s p q : ℝ), ubMatrixToUv ub = .ok (u', v') ∧ 0 < s ∧ u' = s • u ∧ 0 < q ∧
        v' = p • u + q • v) := by
  have hB := bMatFromLattice_ok (trig hL)
  set B := bClosed (trig hL) with hBd
  have hdet := b_det_ne hL hB
  have hcr := cross_mulVec_ne_zero hdet huv
  set t := colMat (nrm (B *ᵥ u)) (nrm (cross (cross (B *ᵥ u) (B *ᵥ v)) (B *ᵥ u)))
    (nrm (cross (B *ᵥ u) (B *ᵥ v))) with ht
  have hrot : IsRot t := triple_rot hcr
  have hti := ti_mul (B *ᵥ u) (B *ᵥ v) hcr
  simp only [← ht] at hti
  set Q := colMat ![0, 0, 1] ![1, 0, 0] ![0, 1, 0] with hQ
  have hub : uvToUb u v L = .ok (Q * (tᵀ * B)) := by
    unfold uvToUb
    rw [hB]
    simp only [py_bind_ok]
    rw [triple_ok hcr]
    simp only [py_bind_ok]
    rw [← ht, inv3_orth hrot.1]
    rfl
  have hU : IsRot (Q * tᵀ) := isRot_mul qFrame_rot (isRot_transpose hrot)
  have hu : (Q * tᵀ * B) *ᵥ u = ![0, 0, norm3 (B *ᵥ u)] := by
    rw [← Matrix.mulVec_mulVec, ← Matrix.mulVec_mulVec, hti.1, hQ, colMat_mulVec]
    apply ext3 <;> simp
  set x := nrm (cross (cross (B *ᵥ u) (B *ᵥ v)) (B *ᵥ u)) ⬝ᵥ (B *ᵥ v) with hx
  set z := nrm (B *ᵥ u) ⬝ᵥ (B *ᵥ v) with hz
  have hv : (Q * tᵀ * B) *ᵥ v = ![x, 0, z] := by
    rw [← Matrix.mulVec_mulVec, ← Matrix.mulVec_mulVec, hti.2.1, hQ, colMat_mulVec]
    apply ext3 <;> simp
  have hup : 0 < norm3 (B *ᵥ u) := norm3_pos (triple_facts hcr).1
  have hubdet : (Q * tᵀ * B).det ≠ 0 := by
    rw [Matrix.det_mul]; exact mul_ne_zero (isRot_det_ne hU) hdet
  refine ⟨B, Q * tᵀ, Q * tᵀ * B, hB, by rw [hub, Matrix.mul_assoc], rfl, hU, ⟨_, hup, hu⟩,
    ⟨x, z, hti.2.2, hv⟩, (C04_recovers hL hB hU.1).1, ?_⟩
  have hinv : ∀ w : V3, (Q * tᵀ * B)⁻¹ *ᵥ ((Q * tᵀ * B) *ᵥ w) = w := by
    intro w
    rw [Matrix.mulVec_mulVec, Matrix.nonsing_inv_mul _ (isUnit_iff_ne_zero.2 hubdet),
      Matrix.one_mulVec]
  refine ⟨(norm3 (B *ᵥ u))⁻¹ • u, (-(z / x / norm3 (B *ᵥ u))) • u + x⁻¹ • v, (norm3 (B *ᵥ u))⁻¹,
    -(z / x / norm3 (B *ᵥ u)), x⁻¹, ?_, inv_pos.2 hup, rfl, inv_pos.2 hti.2.2, rfl⟩
  unfold ubMatrixToUv
  rw [inv3_ok hubdet]
  simp only [py_bind_ok, py_pure, Except.ok.injEq, Prod.mk.injEq]
  have hxp := hti.2.2
  constructor
  · have : (![0, 0, 1] : V3) = (Q * tᵀ * B) *ᵥ ((norm3 (B *ᵥ u))⁻¹ • u) := by
      rw [Matrix.mulVec_smul, hu]; apply ext3 <;> simp; field_simp
    rw [this, hinv]
  · have : (![1, 0, 0] : V3) = (Q * tᵀ * B) *ᵥ ((-(z / x / norm3 (B *ᵥ u))) • u + x⁻¹ • v) := by
      rw [Matrix.mulVec_add, Matrix.mulVec_smul, Matrix.mulVec_smul, hu, hv]
      apply ext3 <;> simp <;> field_simp
      ring
    rw [this, hinv]

example : ∃ ub, uvToUb ![1, 0, 0] ![1, 1, 0] exCell = .ok ub ∧ ubMatrixToLattice ub = .ok exCell :=
  let ⟨_, _, ub, _, h, _, _, _, _, h2, _⟩ := C05_uv_ub (u := ![1, 0, 0]) (v := ![1, 1, 0])
    exCell_possible (by intro h; have := congrFun h 2; simp at this)
  ⟨ub, h, h2⟩

end Tavi
