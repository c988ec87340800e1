import Verif.Lemmas.Arctan2
import Verif.Model.Tas

/-! # C06–C08: goniometer matrices, angle recovery, motor limits -/

namespace Tavi

open Matrix Real
open Spec (IsRot IsOrth)

/-! ## C06 -/

/-- Shape of a successful `r_mat`. -/
theorem rMat_cases {g : Goni} {a : MotorAngles} {R : M3} (h : g.rMat a = .ok R) :
    ∃ s0 s1 s2, g.motorSenses = .ok (s0, s1, s2) ∧
      ((g.operatingMode = .ok "YZX".toList ∧ ∃ w l u, a.omega = some w ∧ a.sgl = some l ∧
          a.sgu = some u ∧ R = rotY (w * s0) * (rotZ (l * s1) * rotX (u * s2))) ∨
       (g.operatingMode = .ok "YZYbisect".toList ∧ ∃ w c p, a.omega = some w ∧ a.chi = some c ∧
          a.phi = some p ∧ R = rotY (w * s0) * (rotZ (c * s1) * rotY (p * s2)))) := by
  unfold Goni.rMat at h
  obtain ⟨⟨s0, s1, s2⟩, hs, h⟩ := py_bind_eq_ok.1 h
  obtain ⟨om, hm, h⟩ := py_bind_eq_ok.1 h
  refine ⟨s0, s1, s2, hs, ?_⟩
  split at h
  · rename_i ho
    left
    refine ⟨by rw [hm, ho], ?_⟩
    split at h
    · rename_i w l u hw hl hu
      exact ⟨w, l, u, hw, hl, hu, by cases h; rfl⟩
    · cases h
  · split at h
    · rename_i ho
      right
      refine ⟨by rw [hm, ho], ?_⟩
      split at h
      · rename_i w l u hw hl hu
        exact ⟨w, l, u, hw, hl, hu, by cases h; rfl⟩
      · cases h
    · cases h

/-- **C06** Whatever the type string and angles: a matrix returned by the goniometer is a proper rotation, the
advertised inverse is returned as well and is a two-sided inverse. -/
theorem C06_r_mat_rotation {g : Goni} {a : MotorAngles} {R : M3} (h : g.rMat a = .ok R) :
    IsRot R ∧ ∃ Ri, g.rMatInv a = .ok Ri ∧ R * Ri = 1 ∧ Ri * R = 1 := by
  have hR : IsRot R := by
    obtain ⟨s0, s1, s2, _, h1 | h1⟩ := rMat_cases h
    · obtain ⟨_, w, l, u, _, _, _, rfl⟩ := h1
      exact isRot_mul (rotY_rot _) (isRot_mul (rotZ_rot _) (rotX_rot _))
    · obtain ⟨_, w, l, u, _, _, _, rfl⟩ := h1
      exact isRot_mul (rotY_rot _) (isRot_mul (rotZ_rot _) (rotY_rot _))
  refine ⟨hR, Rᵀ, ?_, isOrth_mul_transpose hR.1, hR.1⟩
  unfold Goni.rMatInv; rw [h]; rfl

/-- **C06** A refusal is always a `ValueError`, for the matrix and for its inverse. -/
theorem C06_refusal {g : Goni} {a : MotorAngles} {e : PyErr} (h : g.rMat a = .error e) :
    e = .valueError ∧ g.rMatInv a = .error .valueError := by
  have hax : ∀ e', g.axes = .error e' → e' = .valueError := by
    intro e' h'
    unfold Goni.axes at h'
    split at h' <;> cases h'
    rfl
  have he : e = .valueError := by
    unfold Goni.rMat at h
    rcases py_bind_eq_err.1 h with h | ⟨⟨s0, s1, s2⟩, _, h⟩
    · unfold Goni.motorSenses at h
      rcases py_bind_eq_err.1 h with h | ⟨_, _, h⟩
      · exact hax _ h
      · cases h
    rcases py_bind_eq_err.1 h with h | ⟨om, _, h⟩
    · unfold Goni.operatingMode at h
      rcases py_bind_eq_err.1 h with h | ⟨_, _, h⟩
      · unfold Goni.stackingOrder at h
        rcases py_bind_eq_err.1 h with h | ⟨_, _, h⟩
        · exact hax _ h
        · cases h
      · rcases py_bind_eq_err.1 h with h | ⟨_, _, h⟩
        · unfold Goni.mode at h
          rcases py_bind_eq_err.1 h with h | ⟨_, _, h⟩
          · exact hax _ h
          · cases h
        · cases h
    split at h
    · split at h <;> cases h
      rfl
    · split at h
      · split at h <;> cases h
        rfl
      · cases h; rfl
  subst he
  refine ⟨rfl, ?_⟩
  unfold Goni.rMatInv; rw [h]; rfl

/-- **C06** Success is exactly: a supported stacking and all three angles present. -/
theorem C06_success_iff (g : Goni) (a : MotorAngles) :
    (∃ R, g.rMat a = .ok R) ↔
      (g.operatingMode = .ok "YZX".toList ∧ a.omega.isSome ∧ a.sgl.isSome ∧ a.sgu.isSome) ∨
      (g.operatingMode = .ok "YZYbisect".toList ∧ a.omega.isSome ∧ a.chi.isSome ∧ a.phi.isSome) := by
  constructor
  · rintro ⟨R, h⟩
    obtain ⟨s0, s1, s2, _, h1 | h1⟩ := rMat_cases h
    · obtain ⟨hm, w, l, u, hw, hl, hu, _⟩ := h1
      left; simp [hm, hw, hl, hu]
    · obtain ⟨hm, w, l, u, hw, hl, hu, _⟩ := h1
      right; simp [hm, hw, hl, hu]
  · intro h
    have hs : ∃ s, g.motorSenses = .ok s := by
      have : ∃ o, g.operatingMode = .ok o := by rcases h with h | h <;> exact ⟨_, h.1⟩
      obtain ⟨o, ho⟩ := this
      unfold Goni.operatingMode Goni.stackingOrder at ho
      unfold Goni.motorSenses
      obtain ⟨_, ho, _⟩ := py_bind_eq_ok.1 ho
      obtain ⟨v, hx, _⟩ := py_bind_eq_ok.1 ho
      rw [hx]; exact ⟨_, rfl⟩
    obtain ⟨⟨s0, s1, s2⟩, hs⟩ := hs
    unfold Goni.rMat
    rw [hs]
    rcases h with ⟨hm, h1, h2, h3⟩ | ⟨hm, h1, h2, h3⟩
    · obtain ⟨w, hw⟩ := Option.isSome_iff_exists.1 h1
      obtain ⟨l, hl⟩ := Option.isSome_iff_exists.1 h2
      obtain ⟨u, hu⟩ := Option.isSome_iff_exists.1 h3
      rw [hm, hw, hl, hu]
      exact ⟨_, rfl⟩
    · obtain ⟨w, hw⟩ := Option.isSome_iff_exists.1 h1
      obtain ⟨l, hl⟩ := Option.isSome_iff_exists.1 h2
      obtain ⟨u, hu⟩ := Option.isSome_iff_exists.1 h3
      rw [hm, hw, hl, hu]
      exact ⟨_, rfl⟩

/-- The Huber table of HB1A/HB3 has signs (+,−,+). -/
theorem default_senses : ({} : Goni).motorSenses = .ok (1, -1, 1) := by
  simp [Goni.motorSenses, Goni.axes, splitOn, Goni.axSign]

theorem default_mode : ({} : Goni).operatingMode = .ok "YZX".toList := by
  simp [Goni.operatingMode, Goni.stackingOrder, Goni.mode, Goni.axes, splitOn, Goni.unsigned, stripChar]

theorem bisect_senses : ({ type := "Y,-Z,Y,bisect".toList } : Goni).motorSenses = .ok (1, -1, 1) := by
  simp [Goni.motorSenses, Goni.axes, splitOn, Goni.axSign]

theorem bisect_mode :
    ({ type := "Y,-Z,Y,bisect".toList } : Goni).operatingMode = .ok "YZYbisect".toList := by
  simp [Goni.operatingMode, Goni.stackingOrder, Goni.mode, Goni.axes, splitOn, Goni.unsigned, stripChar]

example : ∃ R, ({} : Goni).rMat ⟨30, some 20, some 3, some (-4), none, none⟩ = .ok R ∧ IsRot R := by
  obtain ⟨R, hR⟩ := (C06_success_iff {} ⟨30, some 20, some 3, some (-4), none, none⟩).2
    (Or.inl ⟨default_mode, rfl, rfl, rfl⟩)
  exact ⟨R, hR, (C06_r_mat_rotation hR).1⟩

/-! ## C07 -/

theorem axSign_sq (ax : List Char) : Goni.axSign ax * Goni.axSign ax = 1 := by
  unfold Goni.axSign; split <;> norm_num

theorem senses_sq {g : Goni} {s0 s1 s2 : ℝ} (h : g.motorSenses = .ok (s0, s1, s2)) :
    s0 * s0 = 1 ∧ s1 * s1 = 1 ∧ s2 * s2 = 1 := by
  unfold Goni.motorSenses at h
  obtain ⟨⟨a, b, c, r⟩, hx, h⟩ := py_bind_eq_ok.1 h
  cases h
  exact ⟨axSign_sq _, axSign_sq _, axSign_sq _⟩

theorem yzx_entries (w l u : ℝ) :
    let R := rotY w * (rotZ l * rotX u)
    let cw := cos (deg2rad w); let sw := sin (deg2rad w)
    let cl := cos (deg2rad l); let sl := sin (deg2rad l)
    let cu := cos (deg2rad u); let su := sin (deg2rad u)
    R = !![cw * cl, -cw * sl * cu + sw * su, cw * sl * su + sw * cu;
           sl, cl * cu, -cl * su;
           -sw * cl, sw * sl * cu + cw * su, -sw * sl * su + cw * cu] := by
  intro R cw sw cl sl cu su
  ext i j
  fin_cases i <;> fin_cases j <;>
    simp [R, rotX, rotY, rotZ, cw, sw, cl, sl, cu, su] <;> ring

/-- The motor positions `angles_from_r_mat` would report. -/
noncomputable def yzxAngles (s0 s1 s2 : ℝ) (R : M3) (tt : ℝ) : MotorAngles :=
  { twoTheta := tt, omega := some (rad2deg (s0 * arctan2 (-R 2 0) (R 0 0))),
    sgl := some (rad2deg (s1 * arctan2 (R 1 0) √(R 0 0 ^ 2 + R 2 0 ^ 2))),
    sgu := some (rad2deg (s2 * arctan2 (-R 1 2) (R 1 1))) }

theorem anglesFromRMat_yzx {g : Goni} {s0 s1 s2 : ℝ} (hs : g.motorSenses = .ok (s0, s1, s2))
    (hm : g.operatingMode = .ok "YZX".toList) (R : M3) (tt : ℝ) :
    g.anglesFromRMat R tt =
      (g.validate (yzxAngles s0 s1 s2 R tt) >>= fun _ => .ok (yzxAngles s0 s1 s2 R tt)) := by
  unfold Goni.anglesFromRMat; rw [hs, hm]; rfl

theorem anglesFromRMat_cases {g : Goni} {R : M3} {tt : ℝ} {a : MotorAngles}
    (ha : g.anglesFromRMat R tt = .ok a) : ∃ s0 s1 s2, g.motorSenses = .ok (s0, s1, s2) ∧
      g.operatingMode = .ok "YZX".toList ∧ a = yzxAngles s0 s1 s2 R tt ∧ g.validate a = .ok () := by
  have ha0 := ha
  unfold Goni.anglesFromRMat at ha
  obtain ⟨⟨s0, s1, s2⟩, hs, ha⟩ := py_bind_eq_ok.1 ha
  obtain ⟨om, hm, ha⟩ := py_bind_eq_ok.1 ha
  split at ha
  swap
  · split at ha <;> cases ha
  rename_i ho
  subst ho
  rw [anglesFromRMat_yzx hs hm] at ha0
  obtain ⟨v, hv, ha0⟩ := py_bind_eq_ok.1 ha0
  cases ha0
  exact ⟨s0, s1, s2, hs, hm, rfl, hv⟩

theorem deg_arctan2 {r x s : ℝ} (hr : 0 < r) (hs : s * s = 1) (h1 : -180 < x * s) (h2 : x * s ≤ 180) :
    rad2deg (s * arctan2 (r * sin (deg2rad (x * s))) (r * cos (deg2rad (x * s)))) = x := by
  rw [arctan2_polar hr]
  · have : s * deg2rad (x * s) = deg2rad x := by
      unfold deg2rad; linear_combination (x * (π / 180)) * hs
    rw [this, rad2deg_deg2rad]
  · unfold deg2rad; have := Real.pi_pos; nlinarith
  · exact deg2rad_le_pi h2

/-- **C07** Forward: decomposing the matrix of a Huber table returns the motor angles it was built from, for
every sign pattern, `|sgl| < 90`, and `omega`, `sgu` in the half-open turn. -/
theorem C07_angles_recovered {g : Goni} {s0 s1 s2 : ℝ} (hs : g.motorSenses = .ok (s0, s1, s2))
    (hm : g.operatingMode = .ok "YZX".toList) {tt w l u : ℝ}
    (hl1 : -90 < l) (hl2 : l < 90) (hw1 : -180 < w * s0) (hw2 : w * s0 ≤ 180)
    (hu1 : -180 < u * s2) (hu2 : u * s2 ≤ 180)
    (hv : g.validate { twoTheta := tt, omega := some w, sgl := some l, sgu := some u } = .ok ()) :
    (g.rMat { twoTheta := tt, omega := some w, sgl := some l, sgu := some u } >>=
      fun R => g.anglesFromRMat R tt)
      = .ok { twoTheta := tt, omega := some w, sgl := some l, sgu := some u } := by
  obtain ⟨q0, q1, q2⟩ := senses_sq hs
  have hpi := Real.pi_pos
  have habs : |l * s1| < 90 := by
    rw [abs_mul]
    have : |s1| = 1 := by
      have := abs_mul_abs_self s1; rw [q1] at this; nlinarith [abs_nonneg s1]
    rw [this, mul_one, abs_lt]; exact ⟨hl1, hl2⟩
  obtain ⟨ha1, ha2⟩ := abs_lt.1 habs
  have hc : 0 < cos (deg2rad (l * s1)) := by
    apply Real.cos_pos_of_mem_Ioo
    constructor
    · unfold deg2rad; nlinarith
    · unfold deg2rad; nlinarith
  have hR : g.rMat { twoTheta := tt, omega := some w, sgl := some l, sgu := some u }
      = .ok (rotY (w * s0) * (rotZ (l * s1) * rotX (u * s2))) := by
    unfold Goni.rMat; rw [hs, hm]; rfl
  rw [hR, py_bind_ok, yzx_entries]
  set cw := cos (deg2rad (w * s0)) with hcw
  set sw := sin (deg2rad (w * s0)) with hsw
  set cl := cos (deg2rad (l * s1)) with hcl
  set sl := sin (deg2rad (l * s1)) with hsl
  set cu := cos (deg2rad (u * s2)) with hcu
  set su := sin (deg2rad (u * s2)) with hsu
  have hden : √((cw * cl) ^ 2 + (-sw * cl) ^ 2) = cl := by
    have : (cw * cl) ^ 2 + (-sw * cl) ^ 2 = cl ^ 2 := by
      have := Real.sin_sq_add_cos_sq (deg2rad (w * s0))
      rw [← hsw, ← hcw] at this
      linear_combination (cl ^ 2) * this
    rw [this, Real.sqrt_sq hc.le]
  have e1 : rad2deg (s1 * arctan2 sl cl) = l := by
    have := deg_arctan2 (r := 1) one_pos q1 (x := l) (by linarith) (by linarith)
    simpa only [one_mul] using this
  have e2 : rad2deg (s2 * arctan2 (cl * su) (cl * cu)) = u := deg_arctan2 hc q2 hu1 hu2
  have e0 : rad2deg (s0 * arctan2 (cl * sw) (cl * cw)) = w := deg_arctan2 hc q0 hw1 hw2
  rw [anglesFromRMat_yzx hs hm]
  have f1 : rad2deg (s0 * arctan2 (-(-sw * cl)) (cw * cl)) = w := by
    rw [show -(-sw * cl) = cl * sw by ring, show cw * cl = cl * cw by ring, e0]
  have f2 : rad2deg (s2 * arctan2 (-(-cl * su)) (cl * cu)) = u := by
    rw [show -(-cl * su) = cl * su by ring, e2]
  have : yzxAngles s0 s1 s2 !![cw * cl, -cw * sl * cu + sw * su, cw * sl * su + sw * cu;
           sl, cl * cu, -cl * su;
           -sw * cl, sw * sl * cu + cw * su, -sw * sl * su + cw * cu] tt
      = { twoTheta := tt, omega := some w, sgl := some l, sgu := some u } := by
    simp only [yzxAngles, Matrix.of_apply, Matrix.cons_val', Matrix.cons_val_zero, Matrix.cons_val_one,
      Matrix.cons_val, Matrix.cons_val_fin_one]
    rw [hden, e1, f1, f2]
  rw [this, hv]
  rfl

/-- **C07** Converse: rebuilding the matrix from the decomposed angles returns the matrix, for every rotation
outside gimbal lock (`R00² + R20² ≠ 0`) whose angles were accepted. -/
theorem C07_matrix_recovered {g : Goni} {R : M3} (hR : IsRot R) (hg : R 0 0 ^ 2 + R 2 0 ^ 2 ≠ 0)
    {tt : ℝ} {a : MotorAngles} (ha : g.anglesFromRMat R tt = .ok a) :
    g.rMat a = .ok R ∧ a.twoTheta = tt := by
  obtain ⟨s0, s1, s2, hs, hm, rfl, hv⟩ := anglesFromRMat_cases ha
  refine ⟨?_, rfl⟩
  obtain ⟨q0, q1, q2⟩ := senses_sq hs
  have hrm : g.rMat (yzxAngles s0 s1 s2 R tt) = .ok (rotY (rad2deg (s0 * arctan2 (-R 2 0) (R 0 0)) * s0) *
      (rotZ (rad2deg (s1 * arctan2 (R 1 0) √(R 0 0 ^ 2 + R 2 0 ^ 2)) * s1) *
        rotX (rad2deg (s2 * arctan2 (-R 1 2) (R 1 1)) * s2))) := by
    unfold Goni.rMat; rw [hs, hm]; rfl
  rw [hrm, yzx_entries]
  have cancel : ∀ {s x : ℝ}, s * s = 1 → deg2rad (rad2deg (s * x) * s) = x := by
    intro s x hs
    have : rad2deg (s * x) * s = rad2deg x := by
      unfold rad2deg; linear_combination (x * (180 / π)) * hs
    rw [this, deg2rad_rad2deg]
  rw [cancel q0, cancel q1, cancel q2]
  have hpos : 0 < R 0 0 ^ 2 + R 2 0 ^ 2 := lt_of_le_of_ne (by positivity) (Ne.symm hg)
  set d := √(R 0 0 ^ 2 + R 2 0 ^ 2) with hd
  have hd0 : 0 < d := Real.sqrt_pos.2 hpos
  have hdd : d ^ 2 = R 0 0 ^ 2 + R 2 0 ^ 2 := Real.sq_sqrt hpos.le
  have c0 := (orth_cols hR.1).1
  have r1 := (orth_rows hR.1).2.1
  have n1 : √(R 0 0 ^ 2 + (-R 2 0) ^ 2) = d := by rw [hd]; congr 1; ring
  have n2 : √(d ^ 2 + R 1 0 ^ 2) = 1 := by
    rw [show d ^ 2 + R 1 0 ^ 2 = 1 by linarith]; exact Real.sqrt_one
  have n3 : √(R 1 1 ^ 2 + (-R 1 2) ^ 2) = d := by
    rw [hd]; congr 1; linarith
  have k1 := cos_arctan2 (x := R 0 0) (y := -R 2 0) (by rw [neg_sq]; exact hpos)
  have k1' := sin_arctan2 (R 0 0) (-R 2 0)
  have k2 := cos_arctan2 (x := d) (y := R 1 0) (by positivity)
  have k2' := sin_arctan2 d (R 1 0)
  have k3 := cos_arctan2 (x := R 1 1) (y := -R 1 2) (by rw [neg_sq]; linarith)
  have k3' := sin_arctan2 (R 1 1) (-R 1 2)
  rw [n1] at k1 k1'; rw [n2] at k2 k2'; rw [n3] at k3 k3'
  rw [k1, k1', k2, k2', k3, k3']
  obtain ⟨f01, f02, f21, f22, f00, f11, f10, f20, f12⟩ := rot_cofactor hR
  have hdd' : d ^ 2 = 1 - R 1 0 ^ 2 := by linarith
  congr 1
  have hdne := hd0.ne'
  ext i j
  fin_cases i <;> fin_cases j <;> simp <;> field_simp
  · rw [hdd']; linear_combination (-1 : ℝ) * f01 + R 1 0 * f22
  · rw [hdd']; linear_combination (-1 : ℝ) * f02 - R 1 0 * f21
  · rw [hdd']; linear_combination (-1 : ℝ) * f21 - R 1 0 * f02
  · rw [hdd']; linear_combination (-1 : ℝ) * f22 + R 1 0 * f01

/-! ## C08 -/

/-- Specification: a value respects a pair of optional inclusive bounds. -/
def Spec.Within (lim : Limit) (x : ℝ) : Prop :=
  (∀ lo, lim.1 = some lo → lo ≤ x) ∧ (∀ hi, lim.2 = some hi → x ≤ hi)

/-- Specification: the documented name of each motor. -/
def Spec.motorName : Motor → String
  | .twoTheta => "two_theta"
  | .omega => "omega"
  | .sgl => "sgl"
  | .sgu => "sgu"
  | .chi => "chi"
  | .phi => "phi"

/-- Specification: the limit in force for a motor after a history of (possibly refused) requests is the one
given by the last request naming it, else the initial one. -/
def Spec.inForce (initial : Limit) (m : Motor) (hist : List (List Char × Limit)) : Limit :=
  ((hist.filter (fun o => o.1 = (Spec.motorName m).toList)).getLast?.map Prod.snd).getD initial

/-- A user session: requests one after the other, a raised exception leaves the object as it is. -/
def Goni.session (g : Goni) (hist : List (List Char × Limit)) : Goni :=
  hist.foldl (fun g o => match g.setLimit o.1 o.2 with | .ok g' => g' | .error _ => g) g

theorem checkMotor_ok {lim : Limit} {v : Option ℝ} :
    Goni.checkMotor lim v = .ok () ↔ ∀ x, v = some x → Spec.Within lim x := by
  obtain ⟨lo, hi⟩ := lim
  unfold Goni.checkMotor Spec.Within
  cases v with
  | none => simp
  | some x =>
    cases lo <;> cases hi <;> simp
    constructor
    · intro h
      split at h
      · cases h
      · split at h
        · cases h
        · constructor <;> linarith
    · intro h
      obtain ⟨h1, h2⟩ := h
      rw [if_neg (by linarith), if_neg (by linarith)]

theorem checkMotor_err {lim : Limit} {v : Option ℝ} {e : PyErr} (h : Goni.checkMotor lim v = .error e) :
    e = .valueError := by
  unfold Goni.checkMotor at h
  split at h
  · cases h
  · split at h <;> (try split at h) <;> (try split at h) <;> cases h <;> rfl

theorem validate_ok {g : Goni} {a : MotorAngles} :
    g.validate a = .ok () ↔ ∀ m x, Goni.motorValue a m = some x → Spec.Within (g.limits m) x := by
  unfold Goni.validate
  have key : ∀ {x : Py Unit} {y : Py Unit}, (x >>= fun _ => y) = .ok () ↔ x = .ok () ∧ y = .ok () := by
    intro x y
    rw [py_bind_eq_ok]
    constructor
    · rintro ⟨⟨⟩, h1, h2⟩; exact ⟨h1, h2⟩
    · rintro ⟨h1, h2⟩; exact ⟨(), h1, h2⟩
  simp only [key, checkMotor_ok]
  constructor
  · rintro ⟨h1, h2, h3, h4, h5, h6⟩ m
    cases m <;> assumption
  · intro h
    exact ⟨h _, h _, h _, h _, h _, h _⟩

theorem validate_err {g : Goni} {a : MotorAngles} {e : PyErr} (h : g.validate a = .error e) :
    e = .valueError := by
  unfold Goni.validate at h
  rcases py_bind_eq_err.1 h with h | ⟨_, _, h⟩
  · exact checkMotor_err h
  rcases py_bind_eq_err.1 h with h | ⟨_, _, h⟩
  · exact checkMotor_err h
  rcases py_bind_eq_err.1 h with h | ⟨_, _, h⟩
  · exact checkMotor_err h
  rcases py_bind_eq_err.1 h with h | ⟨_, _, h⟩
  · exact checkMotor_err h
  rcases py_bind_eq_err.1 h with h | ⟨_, _, h⟩
  · exact checkMotor_err h
  exact checkMotor_err h

/-- The motor positions `angles_in_bisect_mode` would report. -/
noncomputable def bisectAngles (s0 s1 s2 sense psi tt : ℝ) (q : V3) : MotorAngles :=
  { twoTheta := tt, omega := some ((sense * 90 + psi) * s0),
    chi := some (rad2deg (s1 * -arctan2 (q 1) √(q 0 ^ 2 + q 2 ^ 2))),
    phi := some (rad2deg (s2 * arctan2 (q 2) (q 0))) }

theorem bisect_cases {g : Goni} {hkl : V3} {tt psi : ℝ} {c : UBConf} {a : MotorAngles}
    (h : g.anglesInBisectMode hkl tt psi c = .ok a) :
    ∃ s0 s1 s2 ub sense, g.motorSenses = .ok (s0, s1, s2) ∧ g.operatingMode = .ok "YZYbisect".toList ∧
      c.ubMat = some ub ∧ g.senseVal = .ok sense ∧
      a = bisectAngles s0 s1 s2 sense psi tt (ub *ᵥ hkl) ∧ g.validate a = .ok () := by
  unfold Goni.anglesInBisectMode at h
  obtain ⟨⟨s0, s1, s2⟩, hs, h⟩ := py_bind_eq_ok.1 h
  obtain ⟨om, hm, h⟩ := py_bind_eq_ok.1 h
  obtain ⟨ub, hub, h⟩ := py_bind_eq_ok.1 h
  have hub := need_eq_ok.1 hub
  dsimp only at h
  split at h
  swap
  · cases h
  rename_i ho
  rw [ho] at hm
  obtain ⟨sense, hse, h⟩ := py_bind_eq_ok.1 h
  obtain ⟨v, hv, h⟩ := py_bind_eq_ok.1 h
  cases h
  exact ⟨s0, s1, s2, ub, sense, hs, hm, hub, hse, rfl, hv⟩

/-- The stages of a successful angle calculation. -/
theorem motorAngles_cases {t : Tas} {hkl : V3} {en : ℝ} {a : MotorAngles}
    (h : t.motorAngles hkl en = .ok a) :
    ∃ tt psi ei ef c, t.getTwoTheta hkl en = .ok tt ∧ t.getPsi hkl en = .ok psi ∧
      t.getEiEf none none en = .ok (ei, ef) ∧ t.sample.ubConf = some c ∧ (∃ m, c.getUbMat = .ok m) ∧
      ((t.goni.mode = .ok none ∧ ∃ r, rMatrixWithMinimalTilt hkl ei ef tt c = .ok r ∧
          t.goni.anglesFromRMat r tt = .ok a) ∨
       (t.goni.mode = .ok (some "bisect".toList) ∧ t.goni.anglesInBisectMode hkl tt psi c = .ok a)) := by
  unfold Tas.motorAngles at h
  obtain ⟨tt, htt, h⟩ := py_bind_eq_ok.1 h
  obtain ⟨psi, hpsi, h⟩ := py_bind_eq_ok.1 h
  obtain ⟨⟨ei, ef⟩, he, h⟩ := py_bind_eq_ok.1 h
  dsimp only at h
  split at h
  · cases h
  rename_i c hc
  obtain ⟨m, hm, h⟩ := py_bind_eq_ok.1 h
  obtain ⟨mode, hmode, h⟩ := py_bind_eq_ok.1 h
  refine ⟨tt, psi, ei, ef, c, htt, hpsi, he, hc, ⟨m, hm⟩, ?_⟩
  split at h
  · left
    obtain ⟨r, hr, h⟩ := py_bind_eq_ok.1 h
    exact ⟨hmode, r, hr, h⟩
  · right
    split at h
    · rename_i ho; subst ho; exact ⟨hmode, h⟩
    · cases h

theorem motorOfName_iff {s : List Char} {m : Motor} :
    Goni.motorOfName s = some m ↔ s = (Spec.motorName m).toList := by
  constructor
  · unfold Goni.motorOfName
    intro h
    split_ifs at h <;> cases h <;> assumption
  · rintro rfl
    cases m <;> rfl

theorem session_limits (g : Goni) (hist : List (List Char × Limit)) (m : Motor) :
    (g.session hist).limits m = Spec.inForce (g.limits m) m hist := by
  induction hist using List.reverseRecOn with
  | nil => rfl
  | append_singleton l o ih =>
    have hstep : g.session (l ++ [o]) =
        match (g.session l).setLimit o.1 o.2 with | .ok g' => g' | .error _ => g.session l := by
      unfold Goni.session; rw [List.foldl_append]; rfl
    rw [hstep]
    by_cases hm : o.1 = (Spec.motorName m).toList
    · unfold Goni.setLimit
      rw [motorOfName_iff.2 hm]
      simp [Spec.inForce, List.filter_append, hm]
    · have hf : Spec.inForce (g.limits m) m (l ++ [o]) = Spec.inForce (g.limits m) m l := by
        simp [Spec.inForce, List.filter_append, hm]
      rw [hf, ← ih]
      unfold Goni.setLimit
      cases hn : Goni.motorOfName o.1 with
      | none => rfl
      | some m' =>
        have : m ≠ m' := by
          rintro rfl; exact hm (motorOfName_iff.1 hn)
        simp [this]

/-- **C08** Whatever limit requests came before (accepted or refused), every motor position handed out by the angle
calculation is within the limits in force. -/
theorem C08_limits_respected (t : Tas) (hist : List (List Char × Limit)) (hkl : V3) (en : ℝ)
    {a : MotorAngles} (h : { t with goni := t.goni.session hist }.motorAngles hkl en = .ok a)
    (m : Motor) {x : ℝ} (hx : Goni.motorValue a m = some x) :
    Spec.Within (Spec.inForce (t.goni.limits m) m hist) x := by
  rw [← session_limits]
  obtain ⟨tt, psi, ei, ef, c, _, _, _, _, _, ⟨_, r, _, h⟩ | ⟨_, h⟩⟩ := motorAngles_cases h
  · obtain ⟨_, _, _, _, _, _, hv⟩ := anglesFromRMat_cases h
    exact validate_ok.1 hv m x hx
  · obtain ⟨_, _, _, _, _, _, _, _, _, _, hv⟩ := bisect_cases h
    exact validate_ok.1 hv m x hx

/-- **C08** The check refuses (with a `ValueError`) exactly the positions with some motor out of its limits. -/
theorem C08_refused_iff (g : Goni) (a : MotorAngles) :
    g.validate a = .error .valueError ↔
      ∃ m x, Goni.motorValue a m = some x ∧ ¬ Spec.Within (g.limits m) x := by
  constructor
  · intro h
    by_contra hc
    push Not at hc
    rw [validate_ok.2 hc] at h
    cases h
  · rintro ⟨m, x, hx, hn⟩
    cases hv : g.validate a with
    | error e => rw [validate_err hv]
    | ok u => exact absurd (validate_ok.1 hv m x hx) hn

/-- **C08** A limit request is accepted iff it names a motor; it changes that motor only; otherwise `ValueError`. -/
theorem C08_set_limit (g : Goni) (name : List Char) (r : Limit) :
    (∀ m, name = (Spec.motorName m).toList → ∃ g', g.setLimit name r = .ok g' ∧ g'.limits m = r ∧
      (∀ m', m' ≠ m → g'.limits m' = g.limits m') ∧ g'.type = g.type ∧ g'.sense = g.sense) ∧
    ((∀ m, name ≠ (Spec.motorName m).toList) → g.setLimit name r = .error .valueError) := by
  constructor
  · intro m hm
    refine ⟨{ g with limits := Function.update g.limits m r }, ?_, ?_, ?_, rfl, rfl⟩
    · unfold Goni.setLimit; rw [motorOfName_iff.2 hm]
    · simp
    · intro m' h; simp [h]
  · intro h
    unfold Goni.setLimit
    cases hn : Goni.motorOfName name with
    | none => rfl
    | some m => exact absurd (motorOfName_iff.1 hn) (h m)

example : Spec.inForce (none, none) .omega
    [("omega".toList, (some 1, some 2)), ("sgl".toList, (none, none)), ("omega".toList, (some (-5), none)),
     ("Omega".toList, (none, none))] = (some (-5), none) := by
  simp [Spec.inForce, Spec.motorName, List.filter]

/-- The Huber table with its default limits accepts small tilts, so the hypotheses of `C07` are satisfiable. -/
example : (({} : Goni).rMat ⟨30, some 20, some 3, some (-4), none, none⟩ >>=
      fun R => ({} : Goni).anglesFromRMat R 30) = .ok ⟨30, some 20, some 3, some (-4), none, none⟩ := by
  refine C07_angles_recovered default_senses default_mode ?_ ?_ ?_ ?_ ?_ ?_ ?_ <;> try norm_num
  rw [validate_ok]
  intro m x hx
  cases m <;> simp [Goni.motorValue] at hx <;> simp [Spec.Within] <;> subst hx <;> norm_num

end Tavi
