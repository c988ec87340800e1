import Verif.Props.RoundTrip

/-! # C19: Spice and Mantid conventions -/

namespace Tavi

open Matrix Real

/-- Specification of the change of axes (documented in `ub_algorithm.py` and the user docs): Spice has `z` up, Mantid has
`y` up; a Spice vector `(x, y, z)` is the Mantid vector `(x, z, -y)`. -/
def Spec.toMantidAxes (v : V3) : V3 := ![v 0, v 2, -v 1]

theorem spiceToMantid_vec (v : V3) : spiceToMantid *ᵥ v = Spec.toMantidAxes v := by
  apply ext3 <;> simp [mulVec3, spiceToMantid, Spec.toMantidAxes]

theorem sm_ms : spiceToMantid * mantidToSpice = 1 := by
  ext i j; fin_cases i <;> fin_cases j <;> simp [spiceToMantid, mantidToSpice, Matrix.mul_apply, Fin.sum_univ_three]

theorem ms_sm : mantidToSpice * spiceToMantid = 1 := mul_eq_one_comm.1 sm_ms

/-- Specification: the names of the two conventions. -/
def Spec.KnownConvention (s : List Char) : Prop := s = "Mantid".toList ∨ s = "Spice".toList

theorem mantid_ne_spice : "Spice".toList ≠ "Mantid".toList := by decide

theorem toMantidM_cases (c : UBConf) (m : M3) :
    (c.convention = "Mantid".toList ∧ c.toMantidM m = .ok m) ∨
    (c.convention = "Spice".toList ∧ c.toMantidM m = .ok (spiceToMantid * m)) ∨
    (¬ Spec.KnownConvention c.convention ∧ c.toMantidM m = .error .valueError) := by
  unfold UBConf.toMantidM Spec.KnownConvention
  split
  · left; simp [*]
  · split
    · right; left; simp [*]
    · right; right; exact ⟨by rintro (h | h) <;> contradiction, rfl⟩

theorem toMantidV_cases (c : UBConf) (m : V3) :
    (c.convention = "Mantid".toList ∧ c.toMantidV m = .ok m) ∨
    (c.convention = "Spice".toList ∧ c.toMantidV m = .ok (spiceToMantid *ᵥ m)) ∨
    (¬ Spec.KnownConvention c.convention ∧ c.toMantidV m = .error .valueError) := by
  unfold UBConf.toMantidV Spec.KnownConvention
  split
  · left; simp [*]
  · split
    · right; left; simp [*]
    · right; right; exact ⟨by rintro (h | h) <;> contradiction, rfl⟩

theorem fromMantidM_of {c : UBConf} {m m' : M3} (h : c.toMantidM m = .ok m') : c.fromMantidM m' = .ok m := by
  rcases toMantidM_cases c m with ⟨h1, h2⟩ | ⟨h1, h2⟩ | ⟨_, h2⟩
  · rw [h2] at h; cases h; simp [UBConf.fromMantidM, h1]
  · rw [h2] at h; cases h
    unfold UBConf.fromMantidM
    rw [h1, if_neg mantid_ne_spice, if_pos rfl, ← Matrix.mul_assoc, ms_sm, Matrix.one_mul]
  · rw [h2] at h; cases h

theorem fromMantidV_of {c : UBConf} {m m' : V3} (h : c.toMantidV m = .ok m') : c.fromMantidV m' = .ok m := by
  rcases toMantidV_cases c m with ⟨h1, h2⟩ | ⟨h1, h2⟩ | ⟨_, h2⟩
  · rw [h2] at h; cases h; simp [UBConf.fromMantidV, h1]
  · rw [h2] at h; cases h
    unfold UBConf.fromMantidV
    rw [h1, if_neg mantid_ne_spice, if_pos rfl, Matrix.mulVec_mulVec, ms_sm, Matrix.one_mulVec]
  · rw [h2] at h; cases h

/-- Specification: the value last assigned to each public attribute in a list of assignments. -/
def Spec.lastUb : List UBConf.Assign → Option M3
  | [] => none
  | a :: l => match Spec.lastUb l with
    | some m => some m
    | none => match a with | .ubMat m => some m | _ => none

/-- The same for the U matrix. -/
def Spec.lastU : List UBConf.Assign → Option M3
  | [] => none
  | a :: l => match Spec.lastU l with
    | some m => some m
    | none => match a with | .uMat m => some m | _ => none

/-- The same for the plane normal. -/
def Spec.lastNormal : List UBConf.Assign → Option V3
  | [] => none
  | a :: l => match Spec.lastNormal l with
    | some m => some m
    | none => match a with | .planeNormal m => some m | _ => none

/-- The same for the in-plane reference. -/
def Spec.lastRef : List UBConf.Assign → Option V3
  | [] => none
  | a :: l => match Spec.lastRef l with
    | some m => some m
    | none => match a with | .inPlaneRef m => some m | _ => none

theorem assign_convention {c c' : UBConf} {a : UBConf.Assign} (h : c.assign a = .ok c') :
    c'.convention = c.convention := by
  cases a <;>
  · simp only [UBConf.assign, UBConf.setUbMat, UBConf.setUMat, UBConf.setPlaneNormal, UBConf.setInPlaneRef] at h
    obtain ⟨m, hm, h⟩ := py_bind_eq_ok.1 h
    cases h; rfl

/-- Reading after one assignment: the assigned attribute reads back as assigned, the others keep their reading. -/
theorem assign_reads {c c' : UBConf} {a : UBConf.Assign} (h : c.assign a = .ok c') :
    (match a with | .ubMat m => c'.getUbMat = .ok m | _ => c'.getUbMat = c.getUbMat) ∧
    (match a with | .uMat m => c'.getUMat = .ok (some m) | _ => c'.getUMat = c.getUMat) ∧
    (match a with | .planeNormal m => c'.getPlaneNormal = .ok (some m) | _ => c'.getPlaneNormal = c.getPlaneNormal) ∧
    (match a with | .inPlaneRef m => c'.getInPlaneRef = .ok (some m) | _ => c'.getInPlaneRef = c.getInPlaneRef) := by
  cases a with
  | ubMat m =>
    simp only [UBConf.assign, UBConf.setUbMat] at h
    obtain ⟨m', hm, h⟩ := py_bind_eq_ok.1 h
    cases h
    refine ⟨?_, rfl, rfl, rfl⟩
    exact fromMantidM_of hm
  | uMat m =>
    simp only [UBConf.assign, UBConf.setUMat] at h
    obtain ⟨m', hm, h⟩ := py_bind_eq_ok.1 h
    cases h
    refine ⟨rfl, ?_, rfl, rfl⟩
    have := fromMantidM_of hm
    simp only [UBConf.getUMat]
    show ((c.fromMantidM m') >>= _) = _
    rw [this]; rfl
  | planeNormal m =>
    simp only [UBConf.assign, UBConf.setPlaneNormal] at h
    obtain ⟨m', hm, h⟩ := py_bind_eq_ok.1 h
    cases h
    refine ⟨rfl, rfl, ?_, rfl⟩
    have := fromMantidV_of hm
    simp only [UBConf.getPlaneNormal]
    show ((c.fromMantidV m') >>= _) = _
    rw [this]; rfl
  | inPlaneRef m =>
    simp only [UBConf.assign, UBConf.setInPlaneRef] at h
    obtain ⟨m', hm, h⟩ := py_bind_eq_ok.1 h
    cases h
    refine ⟨rfl, rfl, rfl, ?_⟩
    have := fromMantidV_of hm
    simp only [UBConf.getInPlaneRef]
    show ((c.fromMantidV m') >>= _) = _
    rw [this]; rfl

theorem session_reads {c c' : UBConf} {l : List UBConf.Assign} (h : l.foldlM UBConf.assign c = .ok c') :
    c'.convention = c.convention ∧
    (c'.getUbMat = match Spec.lastUb l with | some m => .ok m | none => c.getUbMat) ∧
    (c'.getUMat = match Spec.lastU l with | some m => .ok (some m) | none => c.getUMat) ∧
    (c'.getPlaneNormal = match Spec.lastNormal l with | some m => .ok (some m) | none => c.getPlaneNormal) ∧
    (c'.getInPlaneRef = match Spec.lastRef l with | some m => .ok (some m) | none => c.getInPlaneRef) := by
  induction l generalizing c with
  | nil => cases h; exact ⟨rfl, rfl, rfl, rfl, rfl⟩
  | cons a l ih =>
    rw [List.foldlM_cons] at h
    obtain ⟨c1, h1, h⟩ := py_bind_eq_ok.1 h
    obtain ⟨i0, i1, i2, i3, i4⟩ := ih h
    obtain ⟨a1, a2, a3, a4⟩ := assign_reads h1
    refine ⟨i0.trans (assign_convention h1), ?_, ?_, ?_, ?_⟩
    · rw [i1]; simp only [Spec.lastUb]
      cases Spec.lastUb l with
      | some m => rfl
      | none => cases a <;> exact a1
    · rw [i2]; simp only [Spec.lastU]
      cases Spec.lastU l with
      | some m => rfl
      | none => cases a <;> exact a2
    · rw [i3]; simp only [Spec.lastNormal]
      cases Spec.lastNormal l with
      | some m => rfl
      | none => cases a <;> exact a3
    · rw [i4]; simp only [Spec.lastRef]
      cases Spec.lastRef l with
      | some m => rfl
      | none => cases a <;> exact a4

/-- **C19** Any sequence of assignments, in either convention: every attribute reads back the value last assigned. -/
theorem C19_set_get {c c' : UBConf} {l : List UBConf.Assign} (h : l.foldlM UBConf.assign c = .ok c') :
    (∀ m, Spec.lastUb l = some m → c'.getUbMat = .ok m) ∧
    (∀ m, Spec.lastU l = some m → c'.getUMat = .ok (some m)) ∧
    (∀ v, Spec.lastNormal l = some v → c'.getPlaneNormal = .ok (some v)) ∧
    (∀ v, Spec.lastRef l = some v → c'.getInPlaneRef = .ok (some v)) := by
  obtain ⟨_, h1, h2, h3, h4⟩ := session_reads h
  refine ⟨fun m hm => ?_, fun m hm => ?_, fun m hm => ?_, fun m hm => ?_⟩
  · rw [h1, hm]
  · rw [h2, hm]
  · rw [h3, hm]
  · rw [h4, hm]

theorem assign_known {c : UBConf} (hk : Spec.KnownConvention c.convention) (a : UBConf.Assign) :
    ∃ c', c.assign a = .ok c' ∧ c'.convention = c.convention := by
  have M : ∀ m, ∃ m', c.toMantidM m = .ok m' := by
    intro m
    rcases toMantidM_cases c m with ⟨_, h⟩ | ⟨_, h⟩ | ⟨h, _⟩
    · exact ⟨_, h⟩
    · exact ⟨_, h⟩
    · exact absurd hk h
  have V : ∀ m, ∃ m', c.toMantidV m = .ok m' := by
    intro m
    rcases toMantidV_cases c m with ⟨_, h⟩ | ⟨_, h⟩ | ⟨h, _⟩
    · exact ⟨_, h⟩
    · exact ⟨_, h⟩
    · exact absurd hk h
  cases a with
  | ubMat m => obtain ⟨m', h⟩ := M m; exact ⟨{ c with ubMat := some m' }, by
      simp only [UBConf.assign, UBConf.setUbMat]; rw [h]; rfl, rfl⟩
  | uMat m => obtain ⟨m', h⟩ := M m; exact ⟨{ c with uMat := some m' }, by
      simp only [UBConf.assign, UBConf.setUMat]; rw [h]; rfl, rfl⟩
  | planeNormal m =>
    obtain ⟨m', h⟩ := V m; exact ⟨{ c with planeNormal := some m' }, by
      simp only [UBConf.assign, UBConf.setPlaneNormal]; rw [h]; rfl, rfl⟩
  | inPlaneRef m =>
    obtain ⟨m', h⟩ := V m; exact ⟨{ c with inPlaneRef := some m' }, by
      simp only [UBConf.assign, UBConf.setInPlaneRef]; rw [h]; rfl, rfl⟩

/-- **C19** A known convention always works; an unknown one is refused at the first assignment with a `ValueError`. -/
theorem C19_unknown_refused (conv : Option (List Char)) (a : UBConf.Assign) (l : List UBConf.Assign) :
    (Spec.KnownConvention (conv.getD "Spice".toList) → ∃ c, UBConf.init conv (a :: l) = .ok c) ∧
    (¬ Spec.KnownConvention (conv.getD "Spice".toList) → UBConf.init conv (a :: l) = .error .valueError) := by
  unfold UBConf.init
  constructor
  · intro hk
    have gen : ∀ (l : List UBConf.Assign) (c : UBConf), Spec.KnownConvention c.convention →
        ∃ c', l.foldlM UBConf.assign c = .ok c' := by
      intro l
      induction l with
      | nil => intro c _; exact ⟨c, rfl⟩
      | cons a l ih =>
        intro c hc
        obtain ⟨c1, h1, h2⟩ := assign_known hc a
        obtain ⟨c', h'⟩ := ih c1 (h2 ▸ hc)
        exact ⟨c', by rw [List.foldlM_cons, h1, py_bind_ok, h']⟩
    exact gen _ _ hk
  · intro hk
    rw [List.foldlM_cons]
    have : ({ convention := conv.getD "Spice".toList } : UBConf).assign a = .error .valueError := by
      cases a with
      | ubMat m =>
        rcases toMantidM_cases { convention := conv.getD "Spice".toList } m with ⟨h, _⟩ | ⟨h, _⟩ | ⟨_, h⟩
        · exact absurd (Or.inl h) hk
        · exact absurd (Or.inr h) hk
        · simp only [UBConf.assign, UBConf.setUbMat]; rw [h]; rfl
      | uMat m =>
        rcases toMantidM_cases { convention := conv.getD "Spice".toList } m with ⟨h, _⟩ | ⟨h, _⟩ | ⟨_, h⟩
        · exact absurd (Or.inl h) hk
        · exact absurd (Or.inr h) hk
        · simp only [UBConf.assign, UBConf.setUMat]; rw [h]; rfl
      | planeNormal m =>
        rcases toMantidV_cases { convention := conv.getD "Spice".toList } m with ⟨h, _⟩ | ⟨h, _⟩ | ⟨_, h⟩
        · exact absurd (Or.inl h) hk
        · exact absurd (Or.inr h) hk
        · simp only [UBConf.assign, UBConf.setPlaneNormal]; rw [h]; rfl
      | inPlaneRef m =>
        rcases toMantidV_cases { convention := conv.getD "Spice".toList } m with ⟨h, _⟩ | ⟨h, _⟩ | ⟨_, h⟩
        · exact absurd (Or.inl h) hk
        · exact absurd (Or.inr h) hk
        · simp only [UBConf.assign, UBConf.setInPlaneRef]; rw [h]; rfl
    rw [this]; rfl

/-- Specification: rewriting a description from Spice axes to Mantid axes, column by column. -/
def Spec.translate : UBConf.Assign → UBConf.Assign
  | .ubMat m => .ubMat (Matrix.of fun i j => Spec.toMantidAxes (fun k => m k j) i)
  | .uMat m => .uMat (Matrix.of fun i j => Spec.toMantidAxes (fun k => m k j) i)
  | .planeNormal v => .planeNormal (Spec.toMantidAxes v)
  | .inPlaneRef v => .inPlaneRef (Spec.toMantidAxes v)

theorem translate_mat (m : M3) : (Matrix.of fun i j => Spec.toMantidAxes (fun k => m k j) i) = spiceToMantid * m := by
  ext i j
  fin_cases i <;> simp [Spec.toMantidAxes, spiceToMantid, Matrix.mul_apply, Fin.sum_univ_three]

theorem translate_vec (v : V3) : Spec.toMantidAxes v = spiceToMantid *ᵥ v := (spiceToMantid_vec v).symm

theorem spice_V (c : UBConf) (v : V3) :
    UBConf.toMantidV { c with convention := "Spice".toList } v = .ok (spiceToMantid *ᵥ v) := by
  unfold UBConf.toMantidV
  rw [if_neg mantid_ne_spice, if_pos rfl]

theorem spice_M (c : UBConf) (v : M3) :
    UBConf.toMantidM { c with convention := "Spice".toList } v = .ok (spiceToMantid * v) := by
  unfold UBConf.toMantidM
  rw [if_neg mantid_ne_spice, if_pos rfl]

theorem mantid_V (c : UBConf) (v : V3) :
    UBConf.toMantidV { c with convention := "Mantid".toList } v = .ok v := by
  unfold UBConf.toMantidV
  rw [if_pos rfl]

theorem mantid_M (c : UBConf) (v : M3) :
    UBConf.toMantidM { c with convention := "Mantid".toList } v = .ok v := by
  unfold UBConf.toMantidM
  rw [if_pos rfl]

theorem same_storage_step (a : UBConf.Assign) (c : UBConf) :
    ∃ c1 : UBConf, UBConf.assign { c with convention := "Spice".toList } a =
        .ok { c1 with convention := "Spice".toList } ∧
        UBConf.assign { c with convention := "Mantid".toList } (Spec.translate a) =
          .ok { c1 with convention := "Mantid".toList } := by
  cases a with
  | ubMat m =>
    refine ⟨{ c with ubMat := some (spiceToMantid * m) }, ?_, ?_⟩
    · unfold UBConf.assign UBConf.setUbMat; dsimp only; rw [spice_M]; rfl
    · unfold Spec.translate UBConf.assign UBConf.setUbMat; dsimp only; rw [mantid_M, translate_mat]; rfl
  | uMat m =>
    refine ⟨{ c with uMat := some (spiceToMantid * m) }, ?_, ?_⟩
    · unfold UBConf.assign UBConf.setUMat; dsimp only; rw [spice_M]; rfl
    · unfold Spec.translate UBConf.assign UBConf.setUMat; dsimp only; rw [mantid_M, translate_mat]; rfl
  | planeNormal m =>
    refine ⟨{ c with planeNormal := some (spiceToMantid *ᵥ m) }, ?_, ?_⟩
    · unfold UBConf.assign UBConf.setPlaneNormal; dsimp only; rw [spice_V]; rfl
    · unfold Spec.translate UBConf.assign UBConf.setPlaneNormal; dsimp only; rw [mantid_V, translate_vec]; rfl
  | inPlaneRef m =>
    refine ⟨{ c with inPlaneRef := some (spiceToMantid *ᵥ m) }, ?_, ?_⟩
    · unfold UBConf.assign UBConf.setInPlaneRef; dsimp only; rw [spice_V]; rfl
    · unfold Spec.translate UBConf.assign UBConf.setInPlaneRef; dsimp only; rw [mantid_V, translate_vec]; rfl

theorem same_storage (l : List UBConf.Assign) :
    ∀ c : UBConf, ∃ c' : UBConf, l.foldlM UBConf.assign { c with convention := "Spice".toList } =
        .ok { c' with convention := "Spice".toList } ∧
      (l.map Spec.translate).foldlM UBConf.assign { c with convention := "Mantid".toList } =
        .ok { c' with convention := "Mantid".toList } := by
  induction l with
  | nil => intro c; exact ⟨c, rfl, rfl⟩
  | cons a l ih =>
    intro c
    obtain ⟨c1, s1, s2⟩ := same_storage_step a c
    obtain ⟨c', i1, i2⟩ := ih c1
    refine ⟨c', ?_, ?_⟩
    · rw [List.foldlM_cons, s1, py_bind_ok, i1]
    · rw [List.map_cons, List.foldlM_cons, s2, py_bind_ok, i2]

theorem getUbMat_bind {α : Type} (c : UBConf) (s s' : List Char) (hs : Spec.KnownConvention s)
    (hs' : Spec.KnownConvention s') (k : Py α) :
    (({ c with convention := s } : UBConf).getUbMat >>= fun _ => k) =
      (({ c with convention := s' } : UBConf).getUbMat >>= fun _ => k) := by
  have gen : ∀ s, Spec.KnownConvention s → (({ c with convention := s } : UBConf).getUbMat >>= fun _ => k) =
      match c.ubMat with | none => .error .attributeError | some _ => k := by
    intro s hs
    unfold UBConf.getUbMat
    cases c.ubMat with
    | none => rfl
    | some m =>
      unfold UBConf.fromMantidM
      rcases hs with rfl | rfl
      · simp
      · simp
  rw [gen s hs, gen s' hs']

/-- **C19** The same crystal described in Spice axes and in Mantid axes: for every description, reflection and energy the
motor angles (or the refusal) are the same, and so are the reflections computed back from motor angles. -/
theorem C19_angles_independent (l : List UBConf.Assign) (t : Tas) (hkl : V3) (en : ℝ) (a : MotorAngles) :
    ∃ cs cm, UBConf.init (some "Spice".toList) l = .ok cs ∧
      UBConf.init (some "Mantid".toList) (l.map Spec.translate) = .ok cm ∧
      Tas.motorAngles { t with sample := { t.sample with ubConf := some cs } } hkl en =
        Tas.motorAngles { t with sample := { t.sample with ubConf := some cm } } hkl en ∧
      Tas.hklFromAngles { t with sample := { t.sample with ubConf := some cs } } a =
        Tas.hklFromAngles { t with sample := { t.sample with ubConf := some cm } } a := by
  obtain ⟨c', h1, h2⟩ := same_storage l {}
  refine ⟨{ c' with convention := "Spice".toList }, { c' with convention := "Mantid".toList }, h1, h2, ?_, rfl⟩
  unfold Tas.motorAngles
  simp only
  have e1 : ∀ c, Tas.getTwoTheta { t with sample := { t.sample with ubConf := some c } } hkl en =
    t.getTwoTheta hkl en := fun _ => rfl
  have e2 : ∀ c, Tas.getPsi { t with sample := { t.sample with ubConf := some c } } hkl en =
    t.getPsi hkl en := fun _ => rfl
  have e3 : ∀ c, Tas.getEiEf { t with sample := { t.sample with ubConf := some c } } none none en =
    t.getEiEf none none en := fun _ => rfl
  rw [e1, e1, e2, e2, e3, e3]
  congr 1; funext tt
  congr 1; funext psi
  congr 1; funext ee
  exact getUbMat_bind c' _ _ (Or.inr rfl) (Or.inl rfl) _

/-- **C19** The two copies of the conversion agree with each other and with the documented change of axes, and are inverse
to each other. -/
theorem C19_copies_agree (v : V3) :
    spiceToMantidVec v = spiceToMantid *ᵥ v ∧ mantidToSpiceVec v = mantidToSpice *ᵥ v ∧
      spiceToMantid *ᵥ v = Spec.toMantidAxes v ∧ mantidToSpice *ᵥ Spec.toMantidAxes v = v ∧
      spiceToMantidVec (mantidToSpiceVec v) = v ∧ mantidToSpiceVec (spiceToMantidVec v) = v := by
  refine ⟨?_, ?_, spiceToMantid_vec v, ?_, ?_, ?_⟩
  · apply ext3 <;> simp [spiceToMantidVec, spiceToMantid, mulVec3]
  · apply ext3 <;> simp [mantidToSpiceVec, mantidToSpice, mulVec3]
  · rw [← spiceToMantid_vec, Matrix.mulVec_mulVec, ms_sm, Matrix.one_mulVec]
  · apply ext3 <;> simp [spiceToMantidVec, mantidToSpiceVec]
  · apply ext3 <;> simp [spiceToMantidVec, mantidToSpiceVec]

example : ∃ c, UBConf.init none [.ubMat 1, .planeNormal ![0, 0, 1], .ubMat (2 • 1)] = .ok c ∧
    c.getUbMat = .ok (2 • 1) ∧ c.getPlaneNormal = .ok (some ![0, 0, 1]) := by
  obtain ⟨c, h⟩ := (C19_unknown_refused none (.ubMat 1) [.planeNormal ![0, 0, 1], .ubMat (2 • 1)]).1 (Or.inr rfl)
  have := C19_set_get h
  exact ⟨c, h, this.1 _ rfl, this.2.2.1 _ rfl⟩

example (a : UBConf.Assign) : UBConf.init (some "spice".toList) [a] = .error .valueError :=
  (C19_unknown_refused _ a []).2 (by unfold Spec.KnownConvention; simp)

end Tavi
