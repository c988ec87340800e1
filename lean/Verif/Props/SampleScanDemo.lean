import Verif.Props.NearSetup
import Verif.Props.Demo

/-!
# Samples of loaded scans (cases for C85)
-/

namespace Tavi

open Matrix Real Spec

namespace Demo

theorem cell_describes {f : SpiceFile} (hm : f.metadata = normalMeta) :
    DescribesSample f ⟨2.89, 2.89, 2.89, 90, 90, 90⟩ (some (.leaf (.num ((dec false "30".toList "000000".toList).value : ℝ))))
      (rowMajor ubNumerals) ![-0.003037, -0.052334, 0.998625] where
  cell := by
    have hv : cellNumerals.map Numeral.value = [289 / 100, 289 / 100, 289 / 100, 90, 90, 90] := by decide +kernel
    have hr : cellNumerals.map (fun n => (n.value : ℝ)) = [2.89, 2.89, 2.89, 90, 90, 90] := by
      rw [show cellNumerals.map (fun n => (n.value : ℝ)) = (cellNumerals.map Numeral.value).map fun q : ℚ => (q : ℝ) by
        rw [List.map_map]; rfl, hv]
      norm_num
    rw [header_of hm (k := "latticeconstants".toList) (v := joinStr ",".toList (cellNumerals.map Numeral.text)) (by decide), ← hr]
    exact .vector (by decide) cell_valid (trims (by decide +kernel))
  possible := by norm_num [Acceptable]
  mosaic := by
    rw [header_of hm (k := "samplemosaic".toList) (v := (dec false "30".toList "000000".toList).text) (by decide)]
    exact .number (dec_valid (by decide)) rfl rfl
  normal := by
    have hv : normalNumerals.map Numeral.value = [-3037 / 1000000, -52334 / 1000000, 998625 / 1000000] := by decide +kernel
    have hr : normalNumerals.map (fun n => (n.value : ℝ)) = [-0.003037, -0.052334, 0.998625] := by
      rw [show normalNumerals.map (fun n => (n.value : ℝ)) = (normalNumerals.map Numeral.value).map fun q : ℚ => (q : ℝ) by
        rw [List.map_map]; rfl, hv]
      norm_num
    rw [header_of hm (k := "plane_normal".toList) (v := joinStr ",".toList (normalNumerals.map Numeral.text)) (by decide)]
    show HeaderValue _ (some (.leaf (.fin [-0.003037, -0.052334, 0.998625])))
    rw [← hr]
    exact .vector (by decide) normal_valid (trims (by decide +kernel))
  matrix := ⟨ubNumerals, ubNumerals.map Numeral.text, by decide, ub_valid, trims (by decide +kernel), header_of hm (by decide), rfl⟩
  invertible := ub_det

/-- The sample of the energy scan. -/
example : ∃ (s : ScanObj) (r : SampleRec) (c : UBConf), sampleFromScan s = .ok r ∧ r.latt = ⟨2.89, 2.89, 2.89, 90, 90, 90⟩ ∧
    r.ubConf = some c ∧ c.getUbMat = .ok (rowMajor ubNumerals) ∧
    c.getPlaneNormal = .ok (some ![-0.003037, -0.052334, 0.998625]) := by
  obtain ⟨f, s, hm, h⟩ := normal_loaded
  obtain ⟨r, c, h1, h2, _, _, h3, _, h4, h5, _⟩ := C85_sample h (cell_describes hm)
  exact ⟨s, r, c, h1, h2, h3, h4, h5⟩

/-! ## A crystal with exact numbers -/

/-- A header with a cubic crystal along the axes. -/
def cubeLines : List Str :=
  headerLines.take 13 ++ ["# latticeconstants = 1.0,1.0,1.0,90.0,90.0,90.0\n", "# ubmatrix = 1.0,0.0,0.0,0.0,1.0,0.0,0.0,0.0,1.0\n",
    "# plane_normal = 0.0,0.0,1.0\n"].map String.toList ++ headerLines.drop 16 ++
    ["# col_headers =\n", "#   Pt.  e  detector\n", "   1  -3.5  22\n"].map String.toList

/-- The header as it is read. -/
def cubeMeta : List (Str × MetaVal) :=
  headerMeta.take 13 ++ [("latticeconstants".toList, .str "1.0,1.0,1.0,90.0,90.0,90.0".toList),
    ("ubmatrix".toList, .str "1.0,0.0,0.0,0.0,1.0,0.0,0.0,0.0,1.0".toList), ("plane_normal".toList, .str "0.0,0.0,1.0".toList)] ++
    headerMeta.drop 16

/-- The disk with the scan. -/
def cubeDisk : FS := fun p =>
  if p = ["exp".toList] ∨ p = ["exp".toList, "Datafiles".toList] then some .folder
  else if p = ["exp".toList, "Datafiles".toList, "HB1A_exp0266_scan0036.dat".toList] then some (.file cubeLines)
  else none

theorem cube_no_ub (p : List Str) : cubeDisk ("exp".toList :: "UBConf".toList :: p) = none := by
  unfold cubeDisk
  have h1 : ∀ q : List Str, ("exp".toList :: "UBConf".toList :: p : List Str) ≠ "exp".toList :: "Datafiles".toList :: q := by
    intro q h
    have := (List.cons.inj (List.cons.inj h).2).1
    exact absurd this (by decide)
  rw [if_neg, if_neg (h1 _)]
  rintro (h | h)
  · exact absurd (List.cons.inj h).2 (by simp)
  · exact h1 [] h

theorem cube_loaded : ∃ (f : SpiceFile) (s : ScanObj), f.metadata = cubeMeta ∧
    Loaded plainDate (fun _ => none) cubeDisk loadDir "HB1A_exp0266_scan0036.dat".toList f [] (scanName 36) s := by
  obtain ⟨f, hf, hc, hm, d, hd⟩ := loads (disk := cubeDisk) (name := "HB1A_exp0266_scan0036.dat".toList) (lines := cubeLines)
    (cols := [("Pt.".toList, [some 1]), ("e".toList, [some (-7 / 2)]), ("detector".toList, [some 22])])
    (md := cubeMeta)
    (by rw [cubeDisk, if_neg (by decide +kernel), if_pos (by decide +kernel)]) (by decide +kernel) cube_no_ub
    (by decide +kernel) (by decide +kernel)
  obtain ⟨s, hs⟩ := bare_scan hf (by rw [hm]; decide) hd (by rw [hc]; decide +kernel) (by decide) (scanName 36)
  exact ⟨f, _, hm, loaded_of hf hd hs []⟩

def one0 : Numeral := dec false "1".toList "0".toList
def zero0 : Numeral := dec false "0".toList "0".toList
def ninety0 : Numeral := dec false "90".toList "0".toList

theorem unit_valid {l : List Numeral} (h : ∀ n ∈ l, n = one0 ∨ n = zero0 ∨ n = ninety0) : ∀ n ∈ l, n.Valid := by
  intro n hn
  rcases h n hn with rfl | rfl | rfl <;> exact dec_valid (by decide)

theorem one_val : ((one0.value : ℚ) : ℝ) = 1 := by rw [show one0.value = 1 by decide +kernel]; norm_num
theorem zero_val : ((zero0.value : ℚ) : ℝ) = 0 := by rw [show zero0.value = 0 by decide +kernel]; norm_num
theorem ninety_val : ((ninety0.value : ℚ) : ℝ) = 90 := by rw [show ninety0.value = 90 by decide +kernel]; norm_num

theorem cube_unit : rowMajor [one0, zero0, zero0, zero0, one0, zero0, zero0, zero0, one0] = 1 := by
  ext i j
  fin_cases i <;> fin_cases j <;> first | exact one_val | exact zero_val

theorem cube_describes {f : SpiceFile} (hm : f.metadata = cubeMeta) :
    DescribesSample f cube (some (.leaf (.num ((dec false "30".toList "000000".toList).value : ℝ)))) 1 ![0, 0, 1] where
  cell := by
    have hr : [one0, one0, one0, ninety0, ninety0, ninety0].map (fun n => (n.value : ℝ)) = [1, 1, 1, 90, 90, 90] := by
      simp only [List.map_cons, List.map_nil, one_val, ninety_val]
    show HeaderValue _ (some (.leaf (.fin [1, 1, 1, 90, 90, 90])))
    rw [header_of hm (k := "latticeconstants".toList)
      (v := joinStr ",".toList ([one0, one0, one0, ninety0, ninety0, ninety0].map Numeral.text)) (by decide), ← hr]
    exact .vector (by decide) (unit_valid (by simp)) (trims (by decide +kernel))
  possible := by norm_num [Acceptable, cube]
  mosaic := by
    rw [header_of hm (k := "samplemosaic".toList) (v := (dec false "30".toList "000000".toList).text) (by decide)]
    exact .number (dec_valid (by decide)) rfl rfl
  normal := by
    have hr : [zero0, zero0, one0].map (fun n => (n.value : ℝ)) = [0, 0, 1] := by
      simp only [List.map_cons, List.map_nil, one_val, zero_val]
    show HeaderValue _ (some (.leaf (.fin [0, 0, 1])))
    rw [header_of hm (k := "plane_normal".toList) (v := joinStr ",".toList ([zero0, zero0, one0].map Numeral.text)) (by decide),
      ← hr]
    exact .vector (by decide) (unit_valid (by simp)) (trims (by decide +kernel))
  matrix := ⟨_, _, rfl, unit_valid (by simp), trims (by decide +kernel), header_of hm (by decide), cube_unit.symm⟩
  invertible := by simp

/-- The crystal of the scan on the Huber table reaches (1,0,0), and the angles lead back: exactly, and within the bound for all
reflections. -/
example : ∃ (s : ScanObj) (r : SampleRec) (a : MotorAngles), sampleFromScan s = .ok r ∧
    ({ tas "Y,-Z,X" "-" with sample := r.forAngles } : Tas).motorAngles ![1, 0, 0] = .ok a ∧
    ({ tas "Y,-Z,X" "-" with sample := r.forAngles } : Tas).hklFromAngles a = .ok (some ![1, 0, 0]) ∧
    ∃ hkl', ({ tas "Y,-Z,X" "-" with sample := r.forAngles } : Tas).hklFromAngles a = .ok (some hkl') ∧
      len ((1 : M3) *ᵥ hkl' - (1 : M3) *ᵥ ![1, 0, 0]) ≤ 6e-5 := by
  obtain ⟨f, s, hm, h⟩ := cube_loaded
  have hd := cube_describes hm
  obtain ⟨i, _, _, _, e⟩ := fromScan_ok h hd
  obtain ⟨b, hb, hg⟩ := cube_b
  have hM : spiceToMantid * (1 : M3) = spiceToMantid := Matrix.mul_one _
  have hl : len ((spiceToMantid * 1 : M3) *ᵥ ![1, 0, 0]) = 1 := by
    rw [hM, spiceToMantid_vec]; simp [Spec.len, toMantidAxes]
  obtain ⟨a, ha, h1, _⟩ := C68_in_plane
    (t := { tas "Y,-Z,X" "-" with sample := { latt := cube, ubConf := some (spiceConf 1 ![0, 0, 1]) } }) (hkl := ![1, 0, 0])
    (c := spiceConf 1 ![0, 0, 1]) (ub := spiceToMantid * 1)
    ⟨rfl, rfl, by rw [hM]; simp [spiceToMantid, Matrix.det_fin_three], b, hb, by rw [axes_gram]; simpa using hg⟩ (Or.inr rfl)
    (by rw [spiceConf, spiceToMantid_vec]; simp [toMantidAxes]) (by rw [hM, spiceToMantid_vec]; simp [toMantidAxes]) (huberMode "-") (huberMode' "-") rfl rfl
    (by norm_num [Spec.Within, tas]) (by norm_num [Spec.Within, tas])
    (energies "Y,-Z,X" "-") (senseMinus "Y,-Z,X") k_val k_val big big (by rw [hl, mul_one]; exact big)
    (by rw [hl, ← len100]; exact closes)
  refine ⟨s, _, a, e, ha, C85_roundtrip_partial
    (t := { tas "Y,-Z,X" "-" with sample := { latt := cube, ubConf := some (spiceConf 1 ![0, 0, 1]) } }) (hkl := ![1, 0, 0])
    h hd hb (by simpa using hg) (by simp) (.inl (by simp)) e rfl (huberMode' "-") ha ?_, ?_⟩
  · intro x hx
    rw [h1] at hx; cases hx; norm_num
  · obtain ⟨hkl', x, k1, k2, _, k4, k5⟩ := C85_close
      (t := { tas "Y,-Z,X" "-" with sample := { latt := cube, ubConf := some (spiceConf 1 ![0, 0, 1]) } }) (hkl := ![1, 0, 0])
      h hd hb (by simpa using hg) (by simp) e rfl (huberMode' "-") ha
    rw [h1] at k2
    cases k2
    rw [show cos (deg2rad 0) = 1 by simp [deg2rad], mul_one] at k4
    exact ⟨hkl', k1, by linarith⟩

/-- The plane vectors of the crystal. -/
example : ∃ (s : ScanObj) (r : SampleRec) (i : SampleUBInfo), sampleFromScan s = .ok r ∧ sampleUbInfo s = .ok i ∧
    ({ tas "Y,-Z,X" "-" with sample := r.forAngles } : Tas).uv = .ok i.uv ∧ i.uv.isSome := by
  obtain ⟨f, s, hm, h⟩ := cube_loaded
  obtain ⟨_, _, _, _, e⟩ := fromScan_ok h (cube_describes hm)
  obtain ⟨i, h1, h2, h3⟩ := C85_uv h (cube_describes hm) (header_of hm (by decide)) { tas "Y,-Z,X" "-" with sample := _ } e rfl
  exact ⟨s, _, i, e, h1, h2, h3⟩

end Demo

end Tavi
