import Verif.Model.UBText
import Verif.Props.Convention
import Verif.Props.Report

/-!
# C113: what is shown of an orientation and of a set of angles
-/

namespace Tavi

open Matrix Spec

variable {F : ArrFmt} {c : UBConf} {t : Tas}

/-! ## A configuration from observed peaks -/

theorem fromMantidM_known (hc : Spec.KnownConvention c.convention) (m : M3) : ∃ m', c.fromMantidM m = .ok m' ∧ c.toMantidM m' = .ok m := by
  rcases hc with h | h
  · exact ⟨m, by simp [UBConf.fromMantidM, h], by simp [UBConf.toMantidM, h]⟩
  · refine ⟨mantidToSpice * m, ?_, ?_⟩
    · rw [UBConf.fromMantidM, h, if_neg mantid_ne_spice, if_pos rfl]
    · rw [UBConf.toMantidM, h, if_neg mantid_ne_spice, if_pos rfl, ← Matrix.mul_assoc, sm_ms, Matrix.one_mul]

theorem fromMantidV_known (hc : Spec.KnownConvention c.convention) (v : V3) : ∃ v', c.fromMantidV v = .ok v' ∧ c.toMantidV v' = .ok v := by
  rcases hc with h | h
  · exact ⟨v, by simp [UBConf.fromMantidV, h], by simp [UBConf.toMantidV, h]⟩
  · refine ⟨mantidToSpice *ᵥ v, ?_, ?_⟩
    · rw [UBConf.fromMantidV, h, if_neg mantid_ne_spice, if_pos rfl]
    · rw [UBConf.toMantidV, h, if_neg mantid_ne_spice, if_pos rfl, Matrix.mulVec_mulVec, sm_ms, Matrix.one_mulVec]

theorem fromMantidM_unknown (hc : ¬ Spec.KnownConvention c.convention) (m : M3) : c.fromMantidM m = .error .valueError := by
  unfold Spec.KnownConvention at hc
  rw [UBConf.fromMantidM, if_neg (fun h => hc (.inl h)), if_neg (fun h => hc (.inr h))]

theorem calculated_ok {single : Bool} {peaks : List Peak} {plane : Option (V3 × V3)} {s : Sample}
    (h : t.calculateUb single peaks plane = .ok (some c, s)) :
    c.convention = t.convention ∧ c.ubPeaks = some peaks ∧ (∃ b, c.bMat = some b ∧ s.bMat = .ok b) ∧ (∃ ub, c.ubMat = some ub) ∧
    ((peaks.length ≤ 2 ∧ ∃ n r, c.planeNormal = some n ∧ c.inPlaneRef = some r) ∨
      (2 < peaks.length ∧ c.planeNormal = none ∧ c.inPlaneRef = none)) := by
  unfold Tas.calculateUb at h
  obtain ⟨⟨ei, ef⟩, _, h⟩ := py_bind_eq_ok.1 h
  dsimp only at h
  split at h
  · cases h
  split at h
  · obtain ⟨b, hb, h⟩ := py_bind_eq_ok.1 h
    split at h
    · cases h
    · obtain ⟨u, _, h⟩ := py_bind_eq_ok.1 h
      obtain ⟨⟨n, r⟩, _, h⟩ := py_bind_eq_ok.1 h
      cases h
      exact ⟨rfl, rfl, ⟨b, rfl, hb⟩, ⟨_, rfl⟩, .inl ⟨by simp, n, r, rfl, rfl⟩⟩
  · obtain ⟨b, hb, h⟩ := py_bind_eq_ok.1 h
    obtain ⟨u, _, h⟩ := py_bind_eq_ok.1 h
    obtain ⟨⟨n, r⟩, _, h⟩ := py_bind_eq_ok.1 h
    cases h
    exact ⟨rfl, rfl, ⟨b, rfl, hb⟩, ⟨_, rfl⟩, .inl ⟨by simp, n, r, rfl, rfl⟩⟩
  · split at h
    · cases h
    · obtain ⟨ub, _, h⟩ := py_bind_eq_ok.1 h
      obtain ⟨s', _, h⟩ := py_bind_eq_ok.1 h
      obtain ⟨b, hb, h⟩ := py_bind_eq_ok.1 h
      cases h
      exact ⟨rfl, rfl, ⟨b, rfl, hb⟩, ⟨_, rfl⟩, .inr ⟨by simp, rfl, rfl⟩⟩
  · obtain ⟨ub, _, h⟩ := py_bind_eq_ok.1 h
    obtain ⟨s', _, h⟩ := py_bind_eq_ok.1 h
    obtain ⟨b, hb, h⟩ := py_bind_eq_ok.1 h
    cases h
    exact ⟨rfl, rfl, ⟨b, rfl, hb⟩, ⟨_, rfl⟩, .inr ⟨by simp, rfl, rfl⟩⟩
  · cases h

/-- Specification: the line of a matrix or vector: its name and its text without line breaks. -/
def Spec.valueLine (name : String) (s : Str) : Str := name.toList ++ '=' :: s.filter (· ≠ '\n')

/-- Specification: the line of the peaks: how many, and the indices of each in order. -/
def Spec.peaksLine (F : ArrFmt) (ps : List Peak) : Str :=
  ("UB matrix determined from ".toList ++ decStr ps.length ++ " peaks: ".toList) ++ ps.flatMap fun p => F.hkl p.hkl ++ ", ".toList

theorem arrayLine_eq (name : String) (s : Str) : arrayLine name s = Spec.valueLine name s ++ ['\n'] := by
  unfold arrayLine Spec.valueLine oneLine
  simp

theorem lines_end : ∀ (ls : List Str) (z : Str), (ls.map (· ++ ['\n'])).flatten ++ z = Spec.block (ls ++ [z])
  | [], z => rfl
  | a :: ls, z => by
    have := lines_end ls z
    match ls, this with
    | [], _ => simp [Spec.block]
    | b :: ls, this =>
      show (a ++ ['\n'] ++ _) ++ z = a ++ '\n' :: Spec.block (b :: ls ++ [z])
      rw [← this]
      simp

theorem convention_line : "UBconf using ".toList ++ c.convention ++ " convention.\n".toList =
    ("UBconf using ".toList ++ c.convention ++ " convention.".toList) ++ ['\n'] := by
  have : " convention.\n".toList = " convention.".toList ++ ['\n'] := rfl
  rw [this, ← List.append_assoc]

theorem shownM_ok {name : String} {m m' : M3} (h : c.fromMantidM m = .ok m') :
    shownM F c name (some m) = .ok (Spec.valueLine name (F.mat m') ++ ['\n']) := by
  rw [shownM, h, py_bind_ok, ← arrayLine_eq]; rfl

theorem shownV_ok {name : String} {v v' : V3} (h : c.fromMantidV v = .ok v') :
    shownV F c name (some v) = .ok (Spec.valueLine name (F.vec v') ++ ['\n']) := by
  rw [shownV, h, py_bind_ok, ← arrayLine_eq]; rfl

theorem ubText_ok {keys : List UBKey} {ls : List Str} (h : keys.mapM (keyText F c) = .ok ls) : ubText F c keys = .ok ls.flatten := by
  rw [ubText, h, py_bind_ok]; rfl

theorem mapM_step {f : UBKey → Py Str} {a : UBKey} {b : Str} {l : List UBKey} {bs : List Str} (h : f a = .ok b) (hl : l.mapM f = .ok bs) :
    (a :: l).mapM f = .ok (b :: bs) := by
  rw [List.mapM_cons, h, hl]; rfl

theorem mapM_stop (f : UBKey → Py Str) : List.mapM f [] = .ok [] := rfl

/-- C113: an orientation found from observed peaks is shown as the convention, the B matrix of the sample, the UB matrix and (with one or
two peaks) the two vectors of the scattering plane, each as its attribute reads in that convention, and on the last line the number of
peaks and the indices of each in the order given. -/
theorem C113_calculated {single : Bool} {peaks : List Peak} {plane : Option (V3 × V3)} {s : Sample} (F : ArrFmt)
    (h : t.calculateUb single peaks plane = .ok (some c, s)) (hc : Spec.KnownConvention t.convention) :
    ∃ b ub, s.bMat = .ok b ∧ c.getUbMat = .ok ub ∧ c.setUbMat ub = .ok c ∧
      ((2 < peaks.length ∧ ubText F c (calcKeys c) = .ok (Spec.block ["UBconf using ".toList ++ t.convention ++ " convention.".toList,
          Spec.valueLine "b_mat" (F.mat b), Spec.valueLine "ub_mat" (F.mat ub), Spec.peaksLine F peaks])) ∨
       (peaks.length ≤ 2 ∧ ∃ n r, c.getPlaneNormal = .ok (some n) ∧ c.getInPlaneRef = .ok (some r) ∧
        ubText F c (calcKeys c) = .ok (Spec.block ["UBconf using ".toList ++ t.convention ++ " convention.".toList,
          Spec.valueLine "b_mat" (F.mat b), Spec.valueLine "ub_mat" (F.mat ub), Spec.valueLine "plane_normal" (F.vec n),
          Spec.valueLine "in_plane_ref" (F.vec r), Spec.peaksLine F peaks]))) := by
  obtain ⟨h1, h2, ⟨b, h3, hb⟩, ⟨ub, h4⟩, h5⟩ := calculated_ok h
  have hk : Spec.KnownConvention c.convention := by rw [h1]; exact hc
  obtain ⟨ub', e1, e1'⟩ := fromMantidM_known hk ub
  have hset : c.setUbMat ub' = .ok c := by
    rw [UBConf.setUbMat, e1', py_bind_ok, ← h4]; rfl
  have k1 : keyText F c .convention = .ok (("UBconf using ".toList ++ t.convention ++ " convention.".toList) ++ ['\n']) := by
    rw [keyText, convention_line, h1]
  have k2 : keyText F c .bMat = .ok (Spec.valueLine "b_mat" (F.mat b) ++ ['\n']) := by
    rw [keyText, h3, ← arrayLine_eq]; rfl
  have k3 : keyText F c .ubMat = .ok (Spec.valueLine "ub_mat" (F.mat ub') ++ ['\n']) := by
    rw [keyText, h4, shownM_ok e1]
  have k6 : keyText F c .ubPeaks = .ok (Spec.peaksLine F peaks) := by
    rw [keyText, h2]; rfl
  refine ⟨b, ub', hb, by rw [UBConf.getUbMat, h4]; exact e1, hset, ?_⟩
  rcases h5 with ⟨hl, n, r, h5, h6⟩ | ⟨hl, h5, h6⟩
  · right
    obtain ⟨n', e2, _⟩ := fromMantidV_known hk n
    obtain ⟨r', e3, _⟩ := fromMantidV_known hk r
    have k4 : keyText F c .planeNormal = .ok (Spec.valueLine "plane_normal" (F.vec n') ++ ['\n']) := by
      rw [keyText, h5, shownV_ok e2]
    have k5 : keyText F c .inPlaneRef = .ok (Spec.valueLine "in_plane_ref" (F.vec r') ++ ['\n']) := by
      rw [keyText, h6, shownV_ok e3]
    refine ⟨hl, n', r', ?_, ?_, ?_⟩
    · rw [UBConf.getPlaneNormal, h5]; dsimp only; rw [e2, py_bind_ok]; rfl
    · rw [UBConf.getInPlaneRef, h6]; dsimp only; rw [e3, py_bind_ok]; rfl
    · have : calcKeys c = [.convention, .bMat, .ubMat, .planeNormal, .inPlaneRef, .ubPeaks] := by
        rw [calcKeys, h5]; rfl
      rw [this]
      have hm := mapM_step k1 (mapM_step k2 (mapM_step k3 (mapM_step k4 (mapM_step k5 (mapM_step k6 (mapM_stop _))))))
      rw [ubText_ok hm]
      have := lines_end ["UBconf using ".toList ++ t.convention ++ " convention.".toList,
          Spec.valueLine "b_mat" (F.mat b), Spec.valueLine "ub_mat" (F.mat ub'), Spec.valueLine "plane_normal" (F.vec n'),
          Spec.valueLine "in_plane_ref" (F.vec r')] (Spec.peaksLine F peaks)
      refine congrArg Except.ok (Eq.trans ?_ this)
      simp only [List.map_cons, List.map_nil, List.flatten_cons, List.flatten_nil, List.append_nil, List.append_assoc]
  · left
    refine ⟨hl, ?_⟩
    have : calcKeys c = [.convention, .bMat, .ubMat, .ubPeaks] := by
      rw [calcKeys, h5]; rfl
    rw [this]
    have hm := mapM_step k1 (mapM_step k2 (mapM_step k3 (mapM_step k6 (mapM_stop _))))
    rw [ubText_ok hm]
    have := lines_end ["UBconf using ".toList ++ t.convention ++ " convention.".toList,
        Spec.valueLine "b_mat" (F.mat b), Spec.valueLine "ub_mat" (F.mat ub')] (Spec.peaksLine F peaks)
    refine congrArg Except.ok (Eq.trans ?_ this)
    simp only [List.map_cons, List.map_nil, List.flatten_cons, List.flatten_nil, List.append_nil, List.append_assoc]

/-- With a convention of another name nothing is shown: the text is refused. -/
theorem C113_refused {single : Bool} {peaks : List Peak} {plane : Option (V3 × V3)} {s : Sample} (F : ArrFmt)
    (h : t.calculateUb single peaks plane = .ok (some c, s)) (hc : ¬ Spec.KnownConvention t.convention) :
    ubText F c (calcKeys c) = .error .valueError := by
  obtain ⟨h1, h2, ⟨b, h3, hb⟩, ⟨ub, h4⟩, h5⟩ := calculated_ok h
  have hk : ¬ Spec.KnownConvention c.convention := by rw [h1]; exact hc
  have k3 : keyText F c .ubMat = .error .valueError := by
    rw [keyText, h4, shownM, fromMantidM_unknown hk]; rfl
  have : ∃ l, calcKeys c = .convention :: .bMat :: .ubMat :: l := ⟨_, rfl⟩
  obtain ⟨l, hl⟩ := this
  rw [hl, ubText, List.mapM_cons, List.mapM_cons, List.mapM_cons, k3]
  rfl

theorem glue (A B C D K Z : Str) : ∃ pre : Str, [A, B, C, D ++ K, Z ++ ['\n']].flatten = pre ++ K ++ Z ++ ['\n'] :=
  ⟨A ++ B ++ C ++ D, by simp⟩

theorem five_parts {b ub ub' : M3} {v v' : V3} {ps : List Peak} (h3 : c.bMat = some b) (h4 : c.ubMat = some ub) (h2 : c.ubPeaks = some ps)
    (h5 : c.planeNormal = some v') (e1 : c.fromMantidM ub = .ok ub') (e2 : c.fromMantidV v' = .ok v) :
    ubText F c [.convention, .bMat, .ubMat, .ubPeaks, .planeNormal] = .ok
      [("UBconf using ".toList ++ c.convention ++ " convention.".toList) ++ ['\n'], Spec.valueLine "b_mat" (F.mat b) ++ ['\n'],
        Spec.valueLine "ub_mat" (F.mat ub') ++ ['\n'], Spec.peaksLine F ps, Spec.valueLine "plane_normal" (F.vec v) ++ ['\n']].flatten := by
  have k1 : keyText F c .convention = .ok (("UBconf using ".toList ++ c.convention ++ " convention.".toList) ++ ['\n']) := by
    rw [keyText, convention_line]
  have k2 : keyText F c .bMat = .ok (Spec.valueLine "b_mat" (F.mat b) ++ ['\n']) := by
    rw [keyText, h3, ← arrayLine_eq]; rfl
  have k3 : keyText F c .ubMat = .ok (Spec.valueLine "ub_mat" (F.mat ub') ++ ['\n']) := by
    rw [keyText, h4, shownM_ok e1]
  have k4 : keyText F c .ubPeaks = .ok (Spec.peaksLine F ps) := by
    rw [keyText, h2]; rfl
  have k5 : keyText F c .planeNormal = .ok (Spec.valueLine "plane_normal" (F.vec v) ++ ['\n']) := by
    rw [keyText, h5, shownV_ok e2]
  exact ubText_ok (mapM_step k1 (mapM_step k2 (mapM_step k3 (mapM_step k4 (mapM_step k5 (mapM_stop _))))))

theorem listed_end (F : ArrFmt) (A k : Str) {ps : List Peak} (h : ps ≠ []) : ∃ q, A ++ (ps.flatMap fun p => F.hkl p.hkl ++ k) = q ++ k := by
  obtain ⟨ps', p, rfl⟩ : ∃ ps' p, ps = ps' ++ [p] := ⟨ps.dropLast, ps.getLast h, (List.dropLast_append_getLast h).symm⟩
  exact ⟨A ++ (ps'.flatMap fun p => F.hkl p.hkl ++ k) ++ F.hkl p.hkl, by simp⟩

theorem peaksLine_end (F : ArrFmt) {ps : List Peak} (h : ps ≠ []) : ∃ q, Spec.peaksLine F ps = q ++ ", ".toList :=
  listed_end F ("UB matrix determined from ".toList ++ decStr ps.length ++ " peaks: ".toList) ", ".toList h

/-- C113, where it fails: the line of the peaks is not ended, so a scattering plane set afterwards (as is needed after three or more
peaks) stands on that line. -/
theorem C113_glued {peaks : List Peak} {plane : Option (V3 × V3)} {s : Sample} {single : Bool} (F : ArrFmt) (v : V3)
    (h : t.calculateUb single peaks plane = .ok (some c, s)) (hc : Spec.KnownConvention t.convention) (hp : 2 < peaks.length) :
    ∃ c' pre, c.setPlaneNormal v = .ok c' ∧
      ubText F c' (calcKeys c ++ [.planeNormal]) = .ok (pre ++ ", ".toList ++ Spec.valueLine "plane_normal" (F.vec v) ++ ['\n']) := by
  obtain ⟨h1, h2, ⟨b, h3, hb⟩, ⟨ub, h4⟩, h5⟩ := calculated_ok h
  have hk : Spec.KnownConvention c.convention := by rw [h1]; exact hc
  have hn : c.planeNormal = none := by
    rcases h5 with ⟨h, _⟩ | ⟨_, h, _⟩
    · omega
    · exact h
  obtain ⟨ub', e1, _⟩ := fromMantidM_known hk ub
  have hv : ∃ v', c.toMantidV v = .ok v' := by
    rcases toMantidV_cases c v with ⟨_, h⟩ | ⟨_, h⟩ | ⟨h, _⟩
    · exact ⟨_, h⟩
    · exact ⟨_, h⟩
    · exact absurd hk h
  obtain ⟨v', hv⟩ := hv
  have hback := fromMantidV_of hv
  have hkeys : calcKeys c ++ [.planeNormal] = [.convention, .bMat, .ubMat, .ubPeaks, .planeNormal] := by
    rw [calcKeys, hn]; rfl
  have hset : c.setPlaneNormal v = .ok { c with planeNormal := some v' } := by rw [UBConf.setPlaneNormal, hv, py_bind_ok]; rfl
  obtain ⟨q, hq⟩ := peaksLine_end F (ps := peaks) (by rintro rfl; simp at hp)
  have ht := five_parts (F := F) (c := { c with planeNormal := some v' }) h3 h4 h2 rfl (show _ = Except.ok ub' from e1)
    (show _ = Except.ok v from hback)
  rw [hq] at ht
  rw [hkeys]
  obtain ⟨pre, hpre⟩ := glue (("UBconf using ".toList ++ c.convention ++ " convention.".toList) ++ ['\n'])
    (Spec.valueLine "b_mat" (F.mat b) ++ ['\n']) (Spec.valueLine "ub_mat" (F.mat ub') ++ ['\n']) q ", ".toList
    (Spec.valueLine "plane_normal" (F.vec v))
  exact ⟨_, pre, hset, ht.trans (congrArg Except.ok hpre)⟩

/-! ## A set of angles -/

/-- Specification: the motors by name, with the texts of those that are set. -/
def Spec.motorTexts (g4 : ℝ → Str) (a : MotorAngles) : List (Str × Option Str) :=
  [("two_theta".toList, some (g4 a.twoTheta)), ("omega".toList, a.omega.map g4), ("sgl".toList, a.sgl.map g4),
   ("sgu".toList, a.sgu.map g4), ("chi".toList, a.chi.map g4), ("phi".toList, a.phi.map g4)]

/-- Specification: one entry, `name=value`, or nothing. -/
def Spec.entry (e : Str × Option Str) : Option Str := e.2.map fun v => e.1 ++ '=' :: v

theorem angleEntry_eq (g4 : ℝ → Str) (name : String) (x : Option ℝ) :
    angleEntry g4 name x = ((Spec.entry (name.toList, x.map g4)).toList.map (· ++ ", ".toList)).flatten := by
  cases x with
  | none => rfl
  | some x => simp [angleEntry, Spec.entry]

/-- C113: exactly the motors that are set are shown, by name and in the order of the motors. -/
theorem C113_angles (g4 : ℝ → Str) (a : MotorAngles) :
    angleText g4 a = (((Spec.motorTexts g4 a).filterMap Spec.entry).map (· ++ ", ".toList)).flatten := by
  unfold angleText
  simp only [angleEntry_eq]
  have : ∀ l : List (Str × Option Str), ((l.filterMap Spec.entry).map (· ++ ", ".toList)).flatten =
      (l.map fun e => ((Spec.entry e).toList.map (· ++ ", ".toList)).flatten).flatten := by
    intro l
    induction l with
    | nil => rfl
    | cons e l ih =>
      rw [List.map_cons, List.flatten_cons, ← ih]
      cases h : Spec.entry e with
      | none => rw [List.filterMap_cons_none h]; rfl
      | some s => rw [List.filterMap_cons_some h]; simp
  rw [this]
  simp only [Spec.motorTexts, List.map_cons, List.map_nil, List.flatten_cons, List.flatten_nil, List.append_nil, List.append_assoc,
    Option.map_some]

theorem commas_inj : ∀ {l l' : List Str}, (∀ s ∈ l, ',' ∉ s) → (∀ s ∈ l', ',' ∉ s) →
    (l.map (· ++ ", ".toList)).flatten = (l'.map (· ++ ", ".toList)).flatten → l = l'
  | [], [], _, _, _ => rfl
  | [], s :: l', _, _, h => by simp at h
  | s :: l, [], _, _, h => by simp at h
  | s :: l, s' :: l', h1, h2, h => by
    have key : ∀ {x y u v : Str}, ',' ∉ x → ',' ∉ y → x ++ (',' :: u) = y ++ (',' :: v) → x = y ∧ u = v := by
      intro x
      induction x with
      | nil =>
        intro y u v _ hy h
        cases y with
        | nil => simpa using h
        | cons a y => simp only [List.nil_append, List.cons_append, List.cons.injEq] at h; exact absurd (by rw [← h.1]; exact List.mem_cons_self) hy
      | cons a x ih =>
        intro y u v hx hy h
        cases y with
        | nil => simp only [List.nil_append, List.cons_append, List.cons.injEq] at h; exact absurd (by rw [h.1]; exact List.mem_cons_self) hx
        | cons b y =>
          simp only [List.cons_append, List.cons.injEq] at h
          have := ih (fun k => hx (by simp [k])) (fun k => hy (by simp [k])) h.2
          exact ⟨by rw [h.1, this.1], this.2⟩
    have h' : s ++ (',' :: (' ' :: (l.map (· ++ ", ".toList)).flatten)) = s' ++ (',' :: (' ' :: (l'.map (· ++ ", ".toList)).flatten)) := by
      simpa using h
    obtain ⟨e1, e2⟩ := key (h1 s (by simp)) (h2 s' (by simp)) h'
    have e2 := (List.cons.inj e2).2
    rw [e1, commas_inj (fun x hx => h1 x (by simp [hx])) (fun x hx => h2 x (by simp [hx])) e2]

theorem equals_inj {x y u v : Str} (hx : '=' ∉ x) (hy : '=' ∉ y) (h : x ++ '=' :: u = y ++ '=' :: v) : x = y ∧ u = v := by
  induction x generalizing y with
  | nil =>
    cases y with
    | nil => simpa using h
    | cons a y => simp only [List.nil_append, List.cons_append, List.cons.injEq] at h; exact absurd (by rw [← h.1]; exact List.mem_cons_self) hy
  | cons a x ih =>
    cases y with
    | nil => simp only [List.nil_append, List.cons_append, List.cons.injEq] at h; exact absurd (by rw [h.1]; exact List.mem_cons_self) hx
    | cons b y =>
      simp only [List.cons_append, List.cons.injEq] at h
      have := ih (fun k => hx (by simp [k])) (fun k => hy (by simp [k])) h.2
      exact ⟨by rw [h.1, this.1], this.2⟩

theorem entry_some (n w : Str) (l : List (Str × Option Str)) :
    ((n, some w) :: l).filterMap Spec.entry = (n ++ '=' :: w) :: l.filterMap Spec.entry := rfl

theorem entry_none (n : Str) (l : List (Str × Option Str)) : ((n, none) :: l).filterMap Spec.entry = l.filterMap Spec.entry := rfl

theorem entries_inj : ∀ {l l' : List (Str × Option Str)}, l.map Prod.fst = l'.map Prod.fst → (l.map Prod.fst).Nodup →
    (∀ n ∈ l.map Prod.fst, '=' ∉ n) → l.filterMap Spec.entry = l'.filterMap Spec.entry → l = l'
  | [], [], _, _, _, _ => rfl
  | [], _ :: _, h, _, _, _ => by simp at h
  | _ :: _, [], h, _, _, _ => by simp at h
  | (n, v) :: l, (n', v') :: l', hn, hd, he, h => by
    simp only [List.map_cons, List.cons.injEq] at hn
    obtain ⟨rfl, hn⟩ := hn
    rw [List.map_cons, List.nodup_cons] at hd
    have hno : ∀ (k : List (Str × Option Str)), k.map Prod.fst = l.map Prod.fst → ∀ w, (n ++ '=' :: w) ∉ k.filterMap Spec.entry := by
      intro k hk w hw
      rw [List.mem_filterMap] at hw
      obtain ⟨⟨m, x⟩, hm, hx⟩ := hw
      have hmem : m ∈ l.map Prod.fst := by rw [← hk]; exact List.mem_map.2 ⟨_, hm, rfl⟩
      cases x with
      | none => simp [Spec.entry] at hx
      | some x =>
        have hx : m ++ '=' :: x = n ++ '=' :: w := by simpa [Spec.entry] using hx
        have := (equals_inj (he m (by simp only [List.map_cons, List.mem_cons]; exact .inr hmem)) (he n (by simp)) hx).1
        exact hd.1 (this ▸ hmem)
    have hrec : l.filterMap Spec.entry = l'.filterMap Spec.entry → l = l' :=
      entries_inj hn hd.2 (fun x hx => he x (by simp only [List.map_cons, List.mem_cons]; exact .inr hx))
    cases v with
    | none =>
      cases v' with
      | none =>
        rw [entry_none, entry_none] at h
        rw [hrec h]
      | some w =>
        rw [entry_none, entry_some] at h
        exact absurd (h ▸ List.mem_cons_self) (hno l rfl w)
    | some w =>
      cases v' with
      | none =>
        rw [entry_none, entry_some] at h
        exact absurd (h ▸ List.mem_cons_self) (hno l' hn.symm w)
      | some w' =>
        rw [entry_some, entry_some] at h
        obtain ⟨h1, h2⟩ := List.cons.inj h
        have := (List.cons.inj (List.append_cancel_left h1)).2
        rw [this, hrec h2]

/-- C113: what is shown tells which motors are set and the text of each (numbers are written without commas): two positions are shown
alike exactly when the same motors are set and each has the same text. -/
theorem C113_told {g4 : ℝ → Str} (hg : ∀ x, ',' ∉ g4 x) (a a' : MotorAngles) :
    angleText g4 a = angleText g4 a' ↔ g4 a.twoTheta = g4 a'.twoTheta ∧ a.omega.map g4 = a'.omega.map g4 ∧
      a.sgl.map g4 = a'.sgl.map g4 ∧ a.sgu.map g4 = a'.sgu.map g4 ∧ a.chi.map g4 = a'.chi.map g4 ∧ a.phi.map g4 = a'.phi.map g4 := by
  constructor
  · intro h
    rw [C113_angles, C113_angles] at h
    have hc : ∀ b : MotorAngles, ∀ s ∈ (Spec.motorTexts g4 b).filterMap Spec.entry, ',' ∉ s := by
      intro b s hs
      rw [List.mem_filterMap] at hs
      obtain ⟨⟨n, v⟩, hm, hv⟩ := hs
      have hn : ',' ∉ n := by
        have : n ∈ (Spec.motorTexts g4 b).map Prod.fst := List.mem_map.2 ⟨_, hm, rfl⟩
        have e : (Spec.motorTexts g4 b).map Prod.fst = ["two_theta".toList, "omega".toList, "sgl".toList, "sgu".toList, "chi".toList,
          "phi".toList] := rfl
        rw [e] at this
        revert n
        intro n _ _ hmem
        fin_cases hmem <;> decide
      have hw : ∀ w, v = some w → ',' ∉ w := by
        rintro w rfl
        have hopt : ∀ o : Option ℝ, some w = o.map g4 → ',' ∉ w := by
          intro o ho
          cases o with
          | none => cases ho
          | some x => cases ho; exact hg x
        simp only [Spec.motorTexts, List.mem_cons, Prod.mk.injEq, List.not_mem_nil, or_false] at hm
        rcases hm with h | h | h | h | h | h
        · exact hopt (some _) h.2
        all_goals exact hopt _ h.2
      cases v with
      | none => simp [Spec.entry] at hv
      | some w =>
        have hv : n ++ '=' :: w = s := by simpa [Spec.entry] using hv
        rw [← hv]
        simp only [List.mem_append, List.mem_cons, not_or]
        exact ⟨hn, by decide, hw w rfl⟩
    have en : (Spec.motorTexts g4 a).map Prod.fst = ["two_theta".toList, "omega".toList, "sgl".toList, "sgu".toList, "chi".toList,
      "phi".toList] := rfl
    have := entries_inj (l := Spec.motorTexts g4 a) (l' := Spec.motorTexts g4 a') rfl (by rw [en]; decide) (by rw [en]; decide)
      (commas_inj (hc a) (hc a') h)
    simp only [Spec.motorTexts, List.cons.injEq, Prod.mk.injEq, true_and, Option.some.injEq, and_true] at this
    exact this
  · rintro ⟨h1, h2, h3, h4, h5, h6⟩
    rw [C113_angles, C113_angles, Spec.motorTexts, Spec.motorTexts, h1, h2, h3, h4, h5, h6]

/-! ## Concrete cases -/

namespace Demo

/-- Three peaks in right-handed order (as in C15) are shown with the convention, the two matrices and the three peaks; the scattering plane
set afterwards stands on the line of the peaks. -/
example (F : ArrFmt) (v : V3) : ∃ c s, lab.calculateUb false [pk ![1, 0, 0] 0 0, pk ![0, 1, 0] 90 0, pk ![0, 0, 1] 0 90] none = .ok (some c, s) ∧
    (∃ text, ubText F c (calcKeys c) = .ok text ∧ Spec.HasLines text ["UBconf using Spice convention.".toList]) ∧
    ∃ c' pre, c.setPlaneNormal v = .ok c' ∧
      ubText F c' (calcKeys c ++ [.planeNormal]) = .ok (pre ++ ", ".toList ++ Spec.valueLine "plane_normal" (F.vec v) ++ ['\n']) := by
  have hd : (1e-6 : ℝ) ≤ (pk ![1, 0, 0] 0 0).hkl ⬝ᵥ cross (pk ![0, 1, 0] 90 0).hkl (pk ![0, 0, 1] 0 90).hkl := by
    rw [dot3]; simp [pk]; norm_num
  obtain ⟨c, s, _, _, h, _⟩ := C15_three_peaks_partial (pl := none) lab_energies hd (measured1 _) (measured2 _) (measured3 _)
    (by rw [dot3]; simp)
  have hk : Spec.KnownConvention lab.convention := .inr rfl
  refine ⟨c, s, h, ?_, C113_glued F v h hk (by simp)⟩
  obtain ⟨b, ub, _, _, _, h2⟩ := C113_calculated F h hk
  rcases h2 with ⟨_, h2⟩ | ⟨h2, _⟩
  · exact ⟨_, h2, block_has [] (b := [_]) _ (List.cons_ne_nil _ _)⟩
  · simp at h2

/-- Two angles are set: two are shown. -/
example : angleText (fun _ => "1.5".toList) { twoTheta := 1.5, sgu := some 1.5 } = "two_theta=1.5, sgu=1.5, ".toList := rfl

end Demo

end Tavi
