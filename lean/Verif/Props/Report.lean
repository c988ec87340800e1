import Verif.Model.Report
import Verif.Model.Misc
import Verif.Props.Batch
import Verif.Props.QuadricSmall
import Verif.Props.FramePositive
import Verif.Props.Demo

/-!
# C112: the written summary of a resolution calculation

A summary is read line by line: `Spec.HasLines text ls` says that the lines `ls` stand in the text one after the other.
-/

namespace Tavi

open Matrix Spec

/-- Specification: lines written one under the other. -/
def Spec.block : List Str → Str
  | [] => []
  | [l] => l
  | l :: m :: ls => l ++ '\n' :: Spec.block (m :: ls)

/-- Specification: whole consecutive lines of a text. -/
def Spec.HasLines (text : Str) (ls : List Str) : Prop :=
  ∃ pre post : Str, text = pre ++ Spec.block ls ++ post ∧ (pre = [] ∨ ∃ p, pre = p ++ ['\n']) ∧ (post = [] ∨ ∃ q, post = '\n' :: q)

theorem join_block : ∀ ls : List Str, joinStr "\n".toList ls = Spec.block ls
  | [] => rfl
  | [_] => rfl
  | a :: b :: ls => by
    rw [joinStr, Spec.block, join_block (b :: ls)]
    simp

theorem block_append {a b : List Str} (ha : a ≠ []) (hb : b ≠ []) : Spec.block (a ++ b) = Spec.block a ++ '\n' :: Spec.block b := by
  induction a with
  | nil => exact absurd rfl ha
  | cons x a ih =>
    match a, b, hb with
    | [], y :: b, _ => rfl
    | z :: a, b, hb =>
      have := ih (by simp)
      show x ++ '\n' :: Spec.block (z :: a ++ b) = (x ++ '\n' :: Spec.block (z :: a)) ++ _
      rw [this]
      simp

theorem block_has (a : List Str) {b : List Str} (c : List Str) (hb : b ≠ []) : Spec.HasLines (Spec.block (a ++ b ++ c)) b := by
  have h1 : ∃ pre, Spec.block (a ++ b) = pre ++ Spec.block b ∧ (pre = [] ∨ ∃ p, pre = p ++ ['\n']) := by
    by_cases ha : a = []
    · exact ⟨[], by simp [ha], .inl rfl⟩
    · exact ⟨Spec.block a ++ ['\n'], by rw [block_append ha hb]; simp, .inr ⟨_, rfl⟩⟩
  obtain ⟨pre, h1, hp⟩ := h1
  by_cases hc : c = []
  · exact ⟨pre, [], by simp [hc, h1], hp, .inl rfl⟩
  · refine ⟨pre, '\n' :: Spec.block c, ?_, hp, .inr ⟨_, rfl⟩⟩
    rw [block_append (by simp [hb]) hc, h1]

theorem block_last (a : List Str) (p : Str) : Spec.block (a ++ [[]]) ++ p = Spec.block (a ++ [p]) := by
  by_cases ha : a = []
  · simp [ha, Spec.block]
  · rw [block_append ha (by simp), block_append ha (by simp)]
    simp [Spec.block]

theorem block_nested (a b : List Str) (hb : b ≠ []) : Spec.block (a ++ [Spec.block b]) = Spec.block (a ++ b) := by
  by_cases ha : a = []
  · simp [ha, Spec.block]
  · rw [block_append ha (by simp), block_append ha hb]; rfl

/-! ## What a summary says -/

variable {F : NumFmt} {labels : Fin 4 → Str} {mt at' : Str} {t : Tas} {e : Ellipsoid} {text : Str}

/-- Specification: the widths of the four axes, each with the label of its own axis. -/
def Spec.widthsSaid (F : NumFmt) (labels : Fin 4 → Str) (head : String) (w : Fin 4 → ℝ) : List Str :=
  head.toList :: List.ofFn fun i => F.g4 (w i) ++ " in ".toList ++ labels i ++ ", ".toList

/-- The lines of a summary: those of the ellipsoid and then those of the instrument. -/
theorem printed_ok (h : printedReso F labels mt at' t e = .ok text) : ∃ (ub : M3) (c w : Fin 4 → ℝ),
    (∃ uc, t.sample.ubConf = some uc ∧ uc.ubMat = some ub) ∧ IsUnit ub.det ∧
    (∀ i, cohFwhm e.mat i = .ok (c i)) ∧ (∀ i, incohFwhm e.mat i = .ok (w i)) ∧
    text = Spec.block ((reportLines F labels e "Cooper-Nathans".toList c w).dropLast ++
      instrumentLines F mt at' t (ub⁻¹ *ᵥ ![0, 0, 1]) (ub⁻¹ *ᵥ ![1, 0, 0])) := by
  unfold printedReso at h
  obtain ⟨s, hs, h⟩ := py_bind_eq_ok.1 h
  unfold instrumentText at hs
  obtain ⟨uv, huv, hs⟩ := py_bind_eq_ok.1 hs
  obtain ⟨w', hw, hs⟩ := py_bind_eq_ok.1 hs
  have hsT := (Except.ok.inj hs).symm
  unfold reportText at h
  obtain ⟨c0, k0, h⟩ := py_bind_eq_ok.1 h
  obtain ⟨c1, k1, h⟩ := py_bind_eq_ok.1 h
  obtain ⟨c2, k2, h⟩ := py_bind_eq_ok.1 h
  obtain ⟨c3, k3, h⟩ := py_bind_eq_ok.1 h
  obtain ⟨w0, l0, h⟩ := py_bind_eq_ok.1 h
  obtain ⟨w1, l1, h⟩ := py_bind_eq_ok.1 h
  obtain ⟨w2, l2, h⟩ := py_bind_eq_ok.1 h
  obtain ⟨w3, l3, h⟩ := py_bind_eq_ok.1 h
  have hT := (Except.ok.inj h).symm
  have hu := need_eq_ok.1 hw
  subst hu
  unfold Tas.uv at huv
  split at huv
  · cases huv
  · rename_i uc huc
    split at huv
    · cases huv
    · rename_i ub hub
      obtain ⟨p, hp, huv⟩ := py_bind_eq_ok.1 huv
      have huv := Option.some.inj (Except.ok.inj huv)
      subst huv
      unfold ubMatrixToUv at hp
      obtain ⟨i, hi, hp⟩ := py_bind_eq_ok.1 hp
      have hp := (Except.ok.inj hp).symm
      have hdet : ub.det ≠ 0 := fun h0 => by rw [inv3, if_pos h0] at hi; cases hi
      rw [inv3_ok hdet] at hi
      obtain rfl := Except.ok.inj hi
      refine ⟨ub, ![c0, c1, c2, c3], ![w0, w1, w2, w3], ⟨uc, huc, hub⟩, ?_, ?_, ?_, ?_⟩
      · exact isUnit_iff_ne_zero.2 hdet
      · intro i; fin_cases i <;> assumption
      · intro i; fin_cases i <;> assumption
      · rw [hT, hsT, join_block, join_block, hp]
        have e1 : reportLines F labels e "Cooper-Nathans".toList ![c0, c1, c2, c3] ![w0, w1, w2, w3] =
            (reportLines F labels e "Cooper-Nathans".toList ![c0, c1, c2, c3] ![w0, w1, w2, w3]).dropLast ++ [[]] := rfl
        rw [e1, block_last, block_nested _ _ (by simp [instrumentLines])]
        rfl

/-- Any run of consecutive lines of a block stands in it. -/
theorem block_part (ls : List Str) (k n : ℕ) (h : (ls.drop k).take n ≠ []) : Spec.HasLines (Spec.block ls) ((ls.drop k).take n) := by
  have := block_has (ls.take k) ((ls.drop k).drop n) h
  rwa [List.append_assoc, List.take_append_drop, List.take_append_drop] at this

/-- Specification: the energies that are held fixed, and no others, are named. -/
def Spec.energiesSaid (F : NumFmt) (ei ef : Option ℝ) : Str :=
  match ei, ef with
  | none, none => []
  | some a, none => ", fixed Ei=".toList ++ F.f3 a ++ " meV".toList
  | none, some b => ", fixed Ef=".toList ++ F.f3 b ++ " meV".toList
  | some a, some b => ", fixed Ei=".toList ++ F.f3 a ++ " meV, fixed Ef=".toList ++ F.f3 b ++ " meV".toList

/-- **C112** A summary gives the position, the projection axes and the prefactor of its ellipsoid, and the widths of the four axes: the
coherent ones from the diagonal of the matrix, the incoherent ones from the diagonal of its inverse, each next to the label of its own
axis. -/
theorem C112_widths (h : printedReso F labels mt at' t e = .ok text) (hm : SPD e.mat) (hV : ∀ i, e.mat⁻¹ i i ≤ 1e8) :
    Spec.HasLines text (Spec.widthsSaid F labels "Coherent FWHMs are: " fun i => sig2fwhm / √(e.mat i i)) ∧
    Spec.HasLines text (Spec.widthsSaid F labels "Incoherent FWHMs are: " fun i => sig2fwhm * √(e.mat⁻¹ i i)) := by
  obtain ⟨ub, c, w, -, -, hc, hw, rfl⟩ := printed_ok h
  have e1 : c = fun i => sig2fwhm / √(e.mat i i) := by
    funext i
    obtain ⟨c', w', h1, h2, h3, h4, -⟩ := C25_widths hm hV i
    rw [hc i] at h1
    rw [Except.ok.inj h1, h3]
  have e2 : w = fun i => sig2fwhm * √(e.mat⁻¹ i i) := by
    funext i
    obtain ⟨c', w', h1, h2, h3, h4, -⟩ := C25_widths hm hV i
    rw [hw i] at h2
    rw [Except.ok.inj h2, h4]
  rw [← e1, ← e2]
  simp only [Spec.widthsSaid, ofFn4]
  constructor
  · have := block_part ((reportLines F labels e "Cooper-Nathans".toList c w).dropLast ++
      instrumentLines F mt at' t (ub⁻¹ *ᵥ ![0, 0, 1]) (ub⁻¹ *ᵥ ![1, 0, 0])) 6 5
    simp only [reportLines, widthLine, List.dropLast_cons_cons, List.dropLast_singleton, List.cons_append, List.drop_succ_cons, List.drop_zero, List.take_succ_cons, List.take_zero] at this ⊢
    exact this (List.cons_ne_nil _ _)
  · have := block_part ((reportLines F labels e "Cooper-Nathans".toList c w).dropLast ++
      instrumentLines F mt at' t (ub⁻¹ *ᵥ ![0, 0, 1]) (ub⁻¹ *ᵥ ![1, 0, 0])) 11 5
    simp only [reportLines, widthLine, List.dropLast_cons_cons, List.dropLast_singleton, List.cons_append, List.drop_succ_cons, List.drop_zero, List.take_succ_cons, List.take_zero] at this ⊢
    exact this (List.cons_ne_nil _ _)

/-- **C112** The head of a summary: position and momentum transfer, projection axes, the matrix with the names of the axes, prefactor. -/
theorem C112_head (h : printedReso F labels mt at' t e = .ok text) :
    Spec.HasLines text
      ["Resolution ellipsoid centered at (h,k,l)=(".toList ++ F.g4 (e.hkl 0) ++ ", ".toList ++ F.g4 (e.hkl 1) ++ ", ".toList ++ F.g4 (e.hkl 2) ++
         ") (r.l.u.), en=".toList ++ F.g4 e.en ++ " meV. (Q = ".toList ++ F.g4 e.q ++ " A^-1)".toList] ∧
    Spec.HasLines text
      ["Projection axes are ".toList ++ labels 0 ++ ", ".toList ++ labels 1 ++ ", ".toList ++ labels 2 ++ ", ".toList ++ labels 3] ∧
    Spec.HasLines text ["resolution matrix R=".toList,
      F.table (fun i => stripUnit (labels i)) (fun i => stripUnit (labels i)) e.mat, "prefactor R0=".toList ++ F.g4 e.r0] := by
  obtain ⟨ub, c, w, -, -, hc, hw, rfl⟩ := printed_ok h
  refine ⟨?_, ?_, ?_⟩
  · have := block_part ((reportLines F labels e "Cooper-Nathans".toList c w).dropLast ++
      instrumentLines F mt at' t (ub⁻¹ *ᵥ ![0, 0, 1]) (ub⁻¹ *ᵥ ![1, 0, 0])) 0 1
    simp only [reportLines, List.dropLast_cons_cons, List.dropLast_singleton, List.cons_append, List.drop_zero, List.take_succ_cons, List.take_zero] at this ⊢
    exact this (List.cons_ne_nil _ _)
  · have := block_part ((reportLines F labels e "Cooper-Nathans".toList c w).dropLast ++
      instrumentLines F mt at' t (ub⁻¹ *ᵥ ![0, 0, 1]) (ub⁻¹ *ᵥ ![1, 0, 0])) 2 1
    simp only [reportLines, joinStr, List.append_assoc, List.dropLast_cons_cons, List.dropLast_singleton, List.cons_append, List.drop_succ_cons, List.drop_zero, List.take_succ_cons, List.take_zero] at this ⊢
    exact this (List.cons_ne_nil _ _)
  · have := block_part ((reportLines F labels e "Cooper-Nathans".toList c w).dropLast ++
      instrumentLines F mt at' t (ub⁻¹ *ᵥ ![0, 0, 1]) (ub⁻¹ *ᵥ ![1, 0, 0])) 3 3
    simp only [reportLines, List.dropLast_cons_cons, List.dropLast_singleton, List.cons_append, List.drop_succ_cons, List.drop_zero, List.take_succ_cons, List.take_zero] at this ⊢
    exact this (List.cons_ne_nil _ _)

theorem configLine_said (F : NumFmt) (t : Tas) : configLine F t =
    "Triple-axis spectrometer".toList ++ Spec.energiesSaid F t.fixedEi t.fixedEf ++ ", using ".toList ++ t.convention ++ " UB convention.".toList := by
  have k : ∀ r : Str, " meV, fixed Ef=".toList ++ r = " meV".toList ++ (", fixed Ef=".toList ++ r) := fun r => by
    rw [← List.append_assoc]; rfl
  unfold configLine Spec.energiesSaid
  rcases t.fixedEi with - | x <;> rcases t.fixedEf with - | y <;> simp only [List.append_assoc, List.append_nil, k]

theorem tuple_said (F : NumFmt) (f : Fin 4 → ℝ) (head : Str) : head ++ tupleText F f ++ " mins".toList =
    head ++ ("(".toList ++ (F.plain (f 0) ++ (", ".toList ++ (F.plain (f 1) ++ (", ".toList ++ (F.plain (f 2) ++ (", ".toList ++
      (F.plain (f 3) ++ ") mins".toList)))))))) := by
  have k : (")".toList : Str) ++ " mins".toList = ") mins".toList := rfl
  rw [← k]
  simp only [tupleText, joinStr, List.append_assoc]

/-- Consecutive lines of the instrument part. -/
theorem instrument_part (h : printedReso F labels mt at' t e = .ok text) {b : List Str} (x : List Str) (hb : b ≠ [])
    (hI : ∀ u v : V3, ∃ z, instrumentLines F mt at' t u v = x ++ b ++ z) : Spec.HasLines text b := by
  obtain ⟨ub, c, w, -, -, hc, hw, rfl⟩ := printed_ok h
  obtain ⟨z, hz⟩ := hI (ub⁻¹ *ᵥ ![0, 0, 1]) (ub⁻¹ *ᵥ ![1, 0, 0])
  rw [hz]
  have := block_has ((reportLines F labels e "Cooper-Nathans".toList c w).dropLast ++ x) z hb
  simpa only [List.append_assoc] using this

/-- **C112** The instrument part of a summary names the energies held fixed and the convention. -/
theorem C112_energies (h : printedReso F labels mt at' t e = .ok text) : Spec.HasLines text
    ["Triple-axis spectrometer".toList ++ Spec.energiesSaid F t.fixedEi t.fixedEf ++ ", using ".toList ++ t.convention ++ " UB convention.".toList] := by
  rw [← configLine_said]
  exact instrument_part h [] (List.cons_ne_nil _ _) fun u v => ⟨(instrumentLines F mt at' t u v).drop 1, rfl⟩

theorem crystal_said (F : NumFmt) (name type head1 head2 : Str) (m : MonoAna) {mh mv : ℝ} (h1 : m.mosaicH = some mh) (h2 : m.mosaicV = some mv)
    (k1 : head1 = name ++ " type=".toList) (k2 : head2 = name ++ " horizontal and vertical mosiac FWHM=(".toList) :
    crystalLines F name type m = [head1 ++ type ++ ", d_spacing=".toList ++ F.plain m.dSpacing ++ " A".toList,
      head2 ++ F.plain mh ++ ",".toList ++ F.plain mv ++ ") mins".toList] := by
  rw [crystalLines, h1, h2, k1, k2]
  rfl

/-- **C112** Each crystal stands with its own type, spacing and mosaics, the horizontal one before the vertical one. -/
theorem C112_crystals (h : printedReso F labels mt at' t e = .ok text) {mh mv ah av : ℝ} (h1 : t.mono.mosaicH = some mh)
    (h2 : t.mono.mosaicV = some mv) (h3 : t.ana.mosaicH = some ah) (h4 : t.ana.mosaicV = some av) :
    Spec.HasLines text
      ["Monochromator type=".toList ++ mt ++ ", d_spacing=".toList ++ F.plain t.mono.dSpacing ++ " A".toList,
       "Monochromator horizontal and vertical mosiac FWHM=(".toList ++ F.plain mh ++ ",".toList ++ F.plain mv ++ ") mins".toList] ∧
    Spec.HasLines text
      ["Analyzer type=".toList ++ at' ++ ", d_spacing=".toList ++ F.plain t.ana.dSpacing ++ " A".toList,
       "Analyzer horizontal and vertical mosiac FWHM=(".toList ++ F.plain ah ++ ",".toList ++ F.plain av ++ ") mins".toList] := by
  rw [← crystal_said F "Monochromator".toList mt _ _ t.mono h1 h2 (by decide) (by decide),
    ← crystal_said F "Analyzer".toList at' _ _ t.ana h3 h4 (by decide) (by decide)]
  constructor
  · exact instrument_part h [configLine F t] (List.cons_ne_nil _ _) fun u v => ⟨(instrumentLines F mt at' t u v).drop 3, rfl⟩
  · exact instrument_part h ([configLine F t] ++ crystalLines F "Monochromator".toList mt t.mono) (List.cons_ne_nil _ _)
      fun u v => ⟨(instrumentLines F mt at' t u v).drop 5, rfl⟩

theorem tuple_said' (F : NumFmt) (f : Fin 4 → ℝ) (head head' : Str) (k : head' = head ++ "(".toList) :
    head ++ tupleText F f ++ " mins".toList =
    head' ++ F.plain (f 0) ++ ", ".toList ++ F.plain (f 1) ++ ", ".toList ++ F.plain (f 2) ++ ", ".toList ++ F.plain (f 3) ++ ") mins".toList := by
  rw [tuple_said, k]
  simp only [List.append_assoc]

/-- **C112** The collimators stand in the order of the flight path, and the cell with its six parameters. -/
theorem C112_collimators (h : printedReso F labels mt at' t e = .ok text) : Spec.HasLines text
    ["Collimator horizontal divergence = (".toList ++ F.plain (t.coll.h 0) ++ ", ".toList ++ F.plain (t.coll.h 1) ++ ", ".toList ++
       F.plain (t.coll.h 2) ++ ", ".toList ++ F.plain (t.coll.h 3) ++ ") mins".toList,
     "Collimator vertical divergence = (".toList ++ F.plain (t.coll.v 0) ++ ", ".toList ++ F.plain (t.coll.v 1) ++ ", ".toList ++
       F.plain (t.coll.v 2) ++ ", ".toList ++ F.plain (t.coll.v 3) ++ ") mins".toList,
     "Sample lattice parameters a=".toList ++ F.plain t.sample.latt.a ++ " A, b=".toList ++ F.plain t.sample.latt.b ++ " A, c=".toList ++
       F.plain t.sample.latt.c ++ " A, alpha=".toList ++ F.plain t.sample.latt.alpha ++ ", beta=".toList ++ F.plain t.sample.latt.beta ++
       ", gamma=".toList ++ F.plain t.sample.latt.gamma ++ ".".toList] := by
  rw [← tuple_said' F t.coll.h "Collimator horizontal divergence = ".toList _ (by decide),
    ← tuple_said' F t.coll.v "Collimator vertical divergence = ".toList _ (by decide)]
  exact instrument_part h ([configLine F t] ++ crystalLines F "Monochromator".toList mt t.mono ++ crystalLines F "Analyzer".toList at' t.ana)
    (List.cons_ne_nil _ _) fun u v => ⟨(instrumentLines F mt at' t u v).drop 8, rfl⟩

/-- Specification: the number with four decimals that stands for another one. -/
def Spec.FourDecimals (x r : ℝ) : Prop := |x - r| ≤ 1 / 20000 ∧ ∃ n : ℤ, 10000 * r = n

theorem round4_said (x : ℝ) : Spec.FourDecimals x (round4 x) := by
  constructor
  · have h := abs_sub_round (x * 10000)
    have : x - round4 x = (x * 10000 - (round (x * 10000) : ℤ)) / 10000 := by unfold round4; field_simp
    rw [this, abs_div, abs_of_pos (by norm_num : (0 : ℝ) < 10000)]
    linarith
  · exact ⟨round (x * 10000), by unfold round4; ring⟩

/-- **C112** The two vectors printed at the end, with four decimals, are what the text says: in the orientation with all angles zero the first
points along the incident beam and the second is horizontal, across the beam. -/
theorem C112_orientation (h : printedReso F labels mt at' t e = .ok text) : ∃ (ub : M3) (u v u' v' : V3),
    (∃ uc, t.sample.ubConf = some uc ∧ uc.ubMat = some ub) ∧ ub *ᵥ u = ![0, 0, 1] ∧ ub *ᵥ v = ![1, 0, 0] ∧
    (∀ i, Spec.FourDecimals (u i) (u' i) ∧ Spec.FourDecimals (v i) (v' i)) ∧
    Spec.HasLines text
      ["When all goniometer angles are set to zeros, the orientation vectors".toList,
       "u=[".toList ++ F.g4 (u' 0) ++ ", ".toList ++ F.g4 (u' 1) ++ ", ".toList ++ F.g4 (u' 2) ++ "] (r.l.u.) along the incident beam".toList,
       "v=[".toList ++ F.g4 (v' 0) ++ ", ".toList ++ F.g4 (v' 1) ++ ", ".toList ++ F.g4 (v' 2) ++ "] (r.l.u.) in the horizontal scattering plane.".toList] := by
  obtain ⟨ub, c, w, hub, hdet, hc, hw, rfl⟩ := printed_ok h
  refine ⟨ub, ub⁻¹ *ᵥ ![0, 0, 1], ub⁻¹ *ᵥ ![1, 0, 0], fun i => round4 ((ub⁻¹ *ᵥ ![0, 0, 1]) i), fun i => round4 ((ub⁻¹ *ᵥ ![1, 0, 0]) i), hub,
    ?_, ?_, fun i => ⟨round4_said _, round4_said _⟩, ?_⟩
  · rw [mulVec_mulVec, mul_nonsing_inv _ hdet, one_mulVec]
  · rw [mulVec_mulVec, mul_nonsing_inv _ hdet, one_mulVec]
  · have k1 : ∀ r : Str, "u=[".toList ++ r = "u=".toList ++ ("[".toList ++ r) := fun r => by rw [← List.append_assoc]; rfl
    have k2 : ∀ r : Str, "v=[".toList ++ r = "v=".toList ++ ("[".toList ++ r) := fun r => by rw [← List.append_assoc]; rfl
    have k3 : ("]".toList : Str) ++ " (r.l.u.) along the incident beam".toList = "] (r.l.u.) along the incident beam".toList := rfl
    have k4 : ("]".toList : Str) ++ " (r.l.u.) in the horizontal scattering plane.".toList =
      "] (r.l.u.) in the horizontal scattering plane.".toList := rfl
    have := block_part ((reportLines F labels e "Cooper-Nathans".toList c w).dropLast ++
        instrumentLines F mt at' t (ub⁻¹ *ᵥ ![0, 0, 1]) (ub⁻¹ *ᵥ ![1, 0, 0])) 24 3
    simp only [k1, k2, ← k3, ← k4, List.append_assoc]
    simp only [reportLines, instrumentLines, crystalLines, vecText, List.append_assoc,
      List.dropLast_cons_cons, List.dropLast_singleton, List.cons_append, List.nil_append, List.drop_succ_cons, List.drop_zero, List.take_succ_cons,
      List.take_zero] at this ⊢
    exact this (List.cons_ne_nil _ _)

/-! ## The names of rows and columns -/

theorem stripUnit_unit (n u : Str) (hu : ∀ c ∈ u, c ≠ '(' ∧ c ≠ ')') : stripUnit (n ++ '(' :: u ++ [')']) = n := by
  have h1 : (n ++ '(' :: u ++ [')']).reverse = ')' :: (u.reverse ++ '(' :: n.reverse) := by simp
  have h2 : (u.reverse ++ '(' :: n.reverse).dropWhile (fun c => c ≠ '(' && c ≠ ')') = '(' :: n.reverse := by
    rw [List.dropWhile_append_of_pos]
    · rfl
    · intro c hc
      have := hu c (List.mem_reverse.1 hc)
      simp [this]
  unfold stripUnit
  rw [h1]
  simp only [h2, List.reverse_reverse]

/-- The labels of the loop end with their unit. -/
theorem labelLoop_units (fmt3 : ℚ → Str) : ∀ (axes : List LabelAxis) (left : List ℕ) (ls : List Str), labelLoop fmt3 left axes = .ok ls →
    ∀ l ∈ ls, ∃ n : Str, l = n ++ "(r.l.u.)".toList ∨ l = n ++ "(meV)".toList
  | [], left, ls, h, l, hl => by
    obtain rfl := Except.ok.inj h
    cases hl
  | .en :: rest, left, ls, h, l, hl => by
    unfold labelLoop at h
    cases hr : labelLoop fmt3 left rest with
    | error x => rw [hr] at h; cases h
    | ok ms =>
      rw [hr] at h
      obtain rfl := Except.ok.inj h
      rcases List.mem_cons.1 hl with rfl | hl
      · exact ⟨"E ".toList, .inr rfl⟩
      · exact labelLoop_units fmt3 rest left ms hr l hl
  | .vec a b c :: rest, left, ls, h, l, hl => by
    unfold labelLoop at h
    obtain ⟨k, hk, h⟩ := py_bind_eq_ok.1 h
    cases hr : labelLoop fmt3 (left.erase k) rest with
    | error x => rw [hr] at h; cases h
    | ok ms =>
      rw [hr] at h
      obtain rfl := Except.ok.inj h
      rcases List.mem_cons.1 hl with rfl | hl
      · refine ⟨"(".toList ++ labelEntry fmt3 (hklLetter k) a ++ ", ".toList ++ labelEntry fmt3 (hklLetter k) b ++ ", ".toList ++
          labelEntry fmt3 (hklLetter k) c ++ ") ".toList, .inl ?_⟩
        rw [labelVec]
        simp
      · exact labelLoop_units fmt3 rest _ ms hr l hl

/-- **C112** The rows and columns of the printed matrix are named by the labels of the axes without their units, for every projection. -/
theorem C112_rows (fmt3 : ℚ → Str) (axes : Option (List LabelAxis)) {ls : List Str} (h : labelsFromProjection fmt3 axes = .ok ls) :
    ∀ l ∈ ls, ∃ n u : Str, u ∈ ["(r.l.u.)".toList, "(meV)".toList, "(A^-1)".toList] ∧ l = n ++ u ∧ stripUnit l = n := by
  have key : ∀ n u : Str, u ∈ ["(r.l.u.)".toList, "(meV)".toList, "(A^-1)".toList] → stripUnit (n ++ u) = n := by
    intro n u hu
    simp only [List.mem_cons, List.not_mem_nil, or_false] at hu
    rcases hu with rfl | rfl | rfl
    · have := stripUnit_unit n "r.l.u.".toList (by decide)
      simpa using this
    · have := stripUnit_unit n "meV".toList (by decide)
      simpa using this
    · have := stripUnit_unit n "A^-1".toList (by decide)
      simpa using this
  have aux : ∀ l ∈ ls, ∃ n u : Str, u ∈ ["(r.l.u.)".toList, "(meV)".toList, "(A^-1)".toList] ∧ l = n ++ u := by
    intro l hl
    unfold labelsFromProjection at h
    split at h
    · obtain rfl := Except.ok.inj h
      simp only [List.mem_cons, List.not_mem_nil, or_false] at hl
      rcases hl with rfl | rfl | rfl | rfl
      · exact ⟨"Q_para ".toList, "(A^-1)".toList, by decide, rfl⟩
      · exact ⟨"Q_perp ".toList, "(A^-1)".toList, by decide, rfl⟩
      · exact ⟨"Q_up ".toList, "(A^-1)".toList, by decide, rfl⟩
      · exact ⟨"E ".toList, "(meV)".toList, by decide, rfl⟩
    · split at h
      · obtain rfl := Except.ok.inj h
        simp only [List.mem_cons, List.not_mem_nil, or_false] at hl
        rcases hl with rfl | rfl | rfl | rfl
        · exact ⟨"(H, 0, 0) ".toList, "(r.l.u.)".toList, by decide, rfl⟩
        · exact ⟨"(0, K, 0) ".toList, "(r.l.u.)".toList, by decide, rfl⟩
        · exact ⟨"(0, 0, L) ".toList, "(r.l.u.)".toList, by decide, rfl⟩
        · exact ⟨"E ".toList, "(meV)".toList, by decide, rfl⟩
      · obtain ⟨n, hn | hn⟩ := labelLoop_units fmt3 _ _ _ h l hl
        · exact ⟨n, _, by simp, hn⟩
        · exact ⟨n, _, by simp, hn⟩
  intro l hl
  obtain ⟨n, u, hu, rfl⟩ := aux l hl
  exact ⟨n, u, hu, rfl, key n u hu⟩

/-! ## Every result can be printed -/

/-- **C112** Every ellipsoid that `cooper_nathans` returns can be printed: no position, projection or instrument makes the summary fail. -/
theorem C112_prints {hkle : HkleArg} {axes : Option (List AxisItem)} {out : ResoOut} {msgs : List PyErr}
    (h : t.cooperNathans hkle axes = .ok (out, msgs)) (he : out = .bare (some (.finite e)) ∨ ∃ l, out = .tuple l ∧ some (.finite e) ∈ l) :
    (∃ text, printedReso F labels mt at' t e = .ok text) ∧ SPD e.mat := by
  have hd : ∃ u, t.describe = .ok u := by
    unfold Tas.cooperNathans at h
    obtain ⟨_, -, h⟩ := py_bind_eq_ok.1 h
    obtain ⟨u, hu, h⟩ := py_bind_eq_ok.1 h
    exact ⟨u, hu⟩
  obtain ⟨_, hd⟩ := hd
  unfold Tas.describe at hd
  obtain ⟨uv, huv, hd⟩ := py_bind_eq_ok.1 hd
  obtain ⟨w, hw, -⟩ := py_bind_eq_ok.1 hd
  have hub : ∀ c ub, t.sample.ubConf = some c → c.ubMat = some ub → ub.det ≠ 0 := by
    intro c ub hc hu h0
    unfold Tas.uv at huv
    rw [hc] at huv
    dsimp only at huv
    rw [hu] at huv
    dsimp only at huv
    rw [ubMatrixToUv, inv3, if_pos h0] at huv
    cases huv
  obtain ⟨ps, -, -, htol, -, hout⟩ := C28_batch h
  have hq : ∃ q, t.resoAt axes q = .ok e := by
    have key : ∀ q, Spec.resultOf (t.resoAt axes q) = some (.finite e) → t.resoAt axes q = .ok e := by
      intro q hq
      unfold Spec.resultOf at hq
      split at hq <;> simp_all
    rcases hout with ⟨q, -, ho⟩ | ⟨-, ho⟩
    · rcases he with he | ⟨l, he, -⟩
      · rw [ho] at he
        exact ⟨q, key q (ResoOut.bare.inj he)⟩
      · rw [ho] at he; cases he
    · rcases he with he | ⟨l, he, hl⟩
      · rw [ho] at he; cases he
      · rw [ho] at he
        obtain rfl := ResoOut.tuple.inj he
        obtain ⟨q, -, hq⟩ := List.mem_map.1 hl
        exact ⟨q, key q hq⟩
  obtain ⟨q, hq⟩ := hq
  unfold Tas.resoAt at hq
  obtain ⟨⟨m, r0⟩, hm, hq⟩ := py_bind_eq_ok.1 hq
  have hs : SPD e.mat := C27_positive (C24_positive hm).1 hq hub
  refine ⟨?_, hs⟩
  obtain ⟨c0, w0, k0, l0, -⟩ := C25_widths_any hs 0
  obtain ⟨c1, w1, k1, l1, -⟩ := C25_widths_any hs 1
  obtain ⟨c2, w2, k2, l2, -⟩ := C25_widths_any hs 2
  obtain ⟨c3, w3, k3, l3, -⟩ := C25_widths_any hs 3
  unfold printedReso instrumentText reportText
  rw [huv, py_bind_ok, hw, py_bind_ok, py_bind_ok, k0, py_bind_ok, k1, py_bind_ok, k2, py_bind_ok, k3, py_bind_ok, l0, py_bind_ok, l1, py_bind_ok,
    l2, py_bind_ok, l3, py_bind_ok]
  exact ⟨_, rfl⟩

namespace Demo

open Real

/-- The cubic crystal at (1,0,0): `cooper_nathans` returns one ellipsoid, and its summary is printed. -/
theorem printed100 (F : NumFmt) (labels : Fin 4 → Str) (mt at' : Str) : ∃ e text,
    (tas "Y,-Z,X" "-").cooperNathans (.one ![1, 0, 0] 0) none = .ok (.bare (some (.finite e)), []) ∧
    printedReso F labels mt at' (tas "Y,-Z,X" "-") e = .ok text := by
  obtain ⟨M, r0, hM, _⟩ := reso100
  obtain ⟨b, hb, hg⟩ := cube_b
  set E := ksq2eng * (2 * π) ^ 2 with hE
  have h1 : ∃ e, (tas "Y,-Z,X" "-").resoAt none (![1, 0, 0], E, E) = .ok e := by
    unfold Tas.resoAt
    rw [hM, py_bind_ok]
    unfold mkEllipsoid
    change ∃ e, (bMatFromLattice cube >>= _) = Except.ok e
    rw [hb, py_bind_ok]
    exact ⟨_, rfl⟩
  obtain ⟨e, h1⟩ := h1
  have h : (tas "Y,-Z,X" "-").cooperNathans (.one ![1, 0, 0] 0) none = .ok (.bare (some (.finite e)), []) := by
    unfold Tas.cooperNathans
    rw [accepted.1, py_bind_ok, accepted.2, py_bind_ok]
    have hl : (tas "Y,-Z,X" "-").hkleiefList (HkleArg.one ![1, 0, 0] 0).toList = .ok [(![1, 0, 0], E, E)] := by
      unfold Tas.hkleiefList HkleArg.toList
      simp [energies, hE]
    rw [hl, py_bind_ok]
    simp [List.foldlM_cons, resoStep, h1, packReso]
  obtain ⟨⟨text, ht⟩, _⟩ := C112_prints (F := F) (labels := labels) (mt := mt) (at' := at') h (.inl rfl)
  exact ⟨e, text, h, ht⟩

/-- C112: the summary of that result names the energy held fixed. -/
example (F : NumFmt) (labels : Fin 4 → Str) : ∃ text, Spec.HasLines text
    ["Triple-axis spectrometer".toList ++ Spec.energiesSaid F none (some (ksq2eng * (2 * π) ^ 2)) ++ ", using ".toList ++
      (tas "Y,-Z,X" "-").convention ++ " UB convention.".toList] := by
  obtain ⟨e, text, _, ht⟩ := printed100 F labels "PG002".toList "PG002".toList
  have h := C112_energies ht
  have hE : (tas "Y,-Z,X" "-").fixedEi = none := rfl
  have hF : (tas "Y,-Z,X" "-").fixedEf = some (ksq2eng * (2 * π) ^ 2) := rfl
  rw [hE, hF] at h
  exact ⟨text, h⟩

/-- C112: the names of the rows of a customised projection. -/
example : stripUnit "(H, H, 0) (r.l.u.)".toList = "(H, H, 0) ".toList ∧ stripUnit "E (meV)".toList = "E ".toList := by decide

end Demo

end Tavi
