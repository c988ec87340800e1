import Verif.Props.SampleJson
import Verif.Props.ScanInfo
import Verif.Props.RoundTrip
import Verif.Props.MeasurementDemo

/-!
# C85: the sample described by the header of a scan
-/

namespace Tavi

open Matrix Spec

/-- The header of the file describes a sample: six lattice parameters that are possible, a UB matrix that can be inverted
and a plane normal. -/
structure Spec.DescribesSample (f : SpiceFile) (L : Latt) (mos : Option Val) (ub : M3) (n : V3) : Prop where
  cell : HeaderValue (header f "latticeconstants".toList) (some (.leaf (.fin [L.a, L.b, L.c, L.alpha, L.beta, L.gamma])))
  possible : Acceptable L
  mosaic : HeaderValue (header f "samplemosaic".toList) mos
  normal : HeaderValue (header f "plane_normal".toList) (some (.leaf (.fin [n 0, n 1, n 2])))
  matrix : ∃ (ns : List Numeral) (ss : List Str), ns.length = 9 ∧ (∀ n ∈ ns, n.Valid) ∧
    List.Forall₂ (fun s (n : Numeral) => Trim s n.text) ss ns ∧
    header f "ubmatrix".toList = some (joinStr ",".toList ss) ∧ ub = rowMajor ns
  invertible : ub.det ≠ 0

theorem vec3_eta (n : V3) : (![n 0, n 1, n 2] : V3) = n := by
  ext i; fin_cases i <;> rfl

/-- The orientation as it is stored: in the axes of the program. -/
def spiceConf (ub : M3) (n : V3) : UBConf :=
  { convention := "Spice".toList, ubMat := some (spiceToMantid * ub), planeNormal := some (spiceToMantid *ᵥ n) }

theorem init_spice (ub : M3) (n : V3) : UBConf.init none [.ubMat ub, .planeNormal n] = .ok (spiceConf ub n) := by
  unfold UBConf.init
  rw [List.foldlM_cons, UBConf.assign, UBConf.setUbMat, UBConf.toMantidM, if_neg (by decide),
    if_pos (show Option.getD none "Spice".toList = "Spice".toList from rfl)]
  show ([UBConf.Assign.planeNormal n].foldlM UBConf.assign
    { convention := "Spice".toList, ubMat := some (spiceToMantid * ub) } : Py UBConf) = _
  rw [List.foldlM_cons, UBConf.assign, UBConf.setPlaneNormal, UBConf.toMantidV,
    if_neg (show ¬ "Spice".toList = "Mantid".toList by decide), if_pos rfl]
  rfl

/-- What reading the sample of a scan gives. -/
theorem fromInfo_ok {i : SampleUBInfo} {L : Latt} {n : V3}
    (hl : i.lattice = some (.leaf (.fin [L.a, L.b, L.c, L.alpha, L.beta, L.gamma]))) (hL : Acceptable L)
    (hn : i.normal = some (.leaf (.fin [n 0, n 1, n 2]))) :
    sampleFromInfo i = .ok { latt := L, mosaicH := cfgOf i.mosaicH, mosaicV := cfgOf i.mosaicV, ubConf := some (spiceConf i.ub n) } := by
  have e1 : unpackLatt (cfgOf i.lattice) = .ok L := by rw [hl]; rfl
  have e2 : scanNormal (cfgOf i.normal) = .ok n := by
    rw [hn]; exact congrArg Except.ok (vec3_eta n)
  rw [sampleFromInfo, e1, py_bind_ok, newSample_ok hL, py_bind_ok, e2, py_bind_ok, init_spice, py_bind_ok]

/-- The sample of a scan whose header describes one, in full. -/
theorem fromScan_ok {iso : Str → Py Str} {xml : List Str → Option Str} {fs : FS} {dir : List Str} {file : Str} {f : SpiceFile}
    {ds sn : Str} {s : ScanObj} (h : Loaded iso xml fs dir file f ds sn s) {L : Latt} {mos : Option Val} {ub : M3} {n : V3}
    (hd : DescribesSample f L mos ub n) :
    ∃ i, sampleUbInfo s = .ok i ∧ i.ub = ub ∧
      (header f "sampletype".toList = some "crystal".toList → ∃ u v, i.uv = some (u, v) ∧
        toMantidAxes (ub *ᵥ u) = ![0, 0, 1] ∧ toMantidAxes (ub *ᵥ v) = ![1, 0, 0]) ∧
      sampleFromScan s = .ok { latt := L, mosaicH := cfgOf mos, mosaicV := cfgOf mos, ubConf := some (spiceConf ub n) } := by
  obtain ⟨hcell, hL, hmos, hn, ⟨ns, ss, hlen, hv, hss, hub, rfl⟩, hdet⟩ := hd
  obtain ⟨i, e, _, _, h1, h2, h3, h4, h5, h6, _⟩ := C77_sample iso xml fs dir file f ds sn s h _ _ _ hcell hmos hn ns ss hlen hv hss
    hub hdet
  refine ⟨i, e, h5, fun hc => ?_, ?_⟩
  · rw [← h5]; exact h6 hc
  · rw [sampleFromScan, e, py_bind_ok, fromInfo_ok h1 hL h4, h2, h3, h5]

/-- **C85**: the sample made from a scan is the one its header describes: lattice parameters, mosaic in both directions, UB
matrix and plane normal in the axes of the file (Spice). It never has an in-plane vector; its shape is the default one. -/
theorem C85_sample {iso : Str → Py Str} {xml : List Str → Option Str} {fs : FS} {dir : List Str} {file : Str} {f : SpiceFile}
    {ds sn : Str} {s : ScanObj} (h : Loaded iso xml fs dir file f ds sn s) {L : Latt} {mos : Option Val} {ub : M3} {n : V3}
    (hd : DescribesSample f L mos ub n) :
    ∃ r c, sampleFromScan s = .ok r ∧ r.latt = L ∧ r.mosaicH = cfgOf mos ∧ r.mosaicV = cfgOf mos ∧ r.ubConf = some c ∧
      c.convention = "Spice".toList ∧ c.getUbMat = .ok ub ∧ c.getPlaneNormal = .ok (some n) ∧ c.inPlaneRef = none ∧
      r.shape = .str "cuboid".toList := by
  obtain ⟨i, _, _, _, e⟩ := fromScan_ok h hd
  obtain ⟨_, k1, _, k3, _⟩ := session_reads (init_spice ub n)
  exact ⟨_, _, e, rfl, rfl, rfl, rfl, rfl, k1, k3, rfl, rfl⟩

/-- **C85**: the plane vectors the scan reports for a crystal are those an instrument gives for the sample made from it. -/
theorem C85_uv {iso : Str → Py Str} {xml : List Str → Option Str} {fs : FS} {dir : List Str} {file : Str} {f : SpiceFile}
    {ds sn : Str} {s : ScanObj} (h : Loaded iso xml fs dir file f ds sn s) {L : Latt} {mos : Option Val} {ub : M3} {n : V3}
    (hd : DescribesSample f L mos ub n) (hc : header f "sampletype".toList = some "crystal".toList) (t : Tas) {r : SampleRec}
    (hr : sampleFromScan s = .ok r) (ht : t.sample = r.forAngles) :
    ∃ i, sampleUbInfo s = .ok i ∧ t.uv = .ok i.uv ∧ i.uv.isSome := by
  obtain ⟨i, e, _, hu, e'⟩ := fromScan_ok h hd
  obtain ⟨u, v, huv, h1, h2⟩ := hu hc
  rw [e'] at hr
  have hdet : (spiceToMantid * ub).det ≠ 0 := by
    rw [Matrix.det_mul]
    exact mul_ne_zero (by simp [spiceToMantid, Matrix.det_fin_three]) hd.invertible
  have hback : ∀ x w : V3, toMantidAxes (ub *ᵥ x) = w → (spiceToMantid * ub)⁻¹ *ᵥ w = x := by
    rintro x _ rfl
    rw [← spiceToMantid_vec, Matrix.mulVec_mulVec _ spiceToMantid, Matrix.mulVec_mulVec, Matrix.nonsing_inv_mul _ (Ne.isUnit hdet),
      Matrix.one_mulVec]
  refine ⟨i, e, ?_, by rw [huv]; rfl⟩
  rw [Tas.uv, ht, ← Except.ok.inj hr]
  show (ubMatrixToUv (spiceToMantid * ub) >>= fun x => pure (some x)) = _
  unfold ubMatrixToUv
  rw [inv3_ok hdet, huv]
  show Except.ok (some (_, _)) = _
  rw [hback u _ h1, hback v _ h2]

theorem axes_dot (v w : V3) : (spiceToMantid *ᵥ v) ⬝ᵥ (spiceToMantid *ᵥ w) = v ⬝ᵥ w := by
  rw [spiceToMantid_vec, spiceToMantid_vec]
  simp [toMantidAxes, dotProduct, Fin.sum_univ_three]; ring

theorem axes_cross_len (v w : V3) : len (cross (spiceToMantid *ᵥ v) (spiceToMantid *ᵥ w)) = len (cross v w) := by
  rw [spiceToMantid_vec, spiceToMantid_vec]
  unfold Spec.len
  congr 1
  simp [toMantidAxes, cross]; ring

theorem axes_gram (m : M3) : (spiceToMantid * m)ᵀ * (spiceToMantid * m) = mᵀ * m := by
  have : spiceToMantidᵀ * spiceToMantid = 1 := by
    ext i j; fin_cases i <;> fin_cases j <;> simp [spiceToMantid, Matrix.mul_apply, Fin.sum_univ_three]
  rw [Matrix.transpose_mul, Matrix.mul_assoc, ← Matrix.mul_assoc spiceToMantidᵀ, this, Matrix.one_mul]

/-- **C85**: with the sample of a scan on a Huber table, the motor angles calculated for an elastic reflection lead back to the
reflection. The UB matrix of the header belongs to its lattice parameters, the normal is a unit vector, and the reflection is
in the scattering plane or clearly out of it and not along its normal. -/
theorem C85_roundtrip_partial {iso : Str → Py Str} {xml : List Str → Option Str} {fs : FS} {dir : List Str} {file : Str}
    {f : SpiceFile} {ds sn : Str} {s : ScanObj} (h : Loaded iso xml fs dir file f ds sn s) {L : Latt} {mos : Option Val} {ub : M3}
    {n : V3} (hd : DescribesSample f L mos ub n) {b : M3} (hb : bMatFromLattice L = .ok b) (hcons : bᵀ * b = ubᵀ * ub)
    (hn : n ⬝ᵥ n = 1) {hkl : V3} (hclear : n ⬝ᵥ (ub *ᵥ hkl) = 0 ∨
      (1e-5 ≤ |n ⬝ᵥ (ub *ᵥ hkl)| ∧ 1e-5 ≤ len (cross n (ub *ᵥ hkl))))
    {r : SampleRec} (hr : sampleFromScan s = .ok r) {t : Tas} (ht : t.sample = r.forAngles) (hmode : t.goni.mode = .ok none)
    {a : MotorAngles} (ha : t.motorAngles hkl = .ok a) (hl : ∀ x, a.sgl = some x → |x| ≠ 90) :
    t.hklFromAngles a = .ok (some hkl) := by
  obtain ⟨i, _, _, _, e⟩ := fromScan_ok h hd
  rw [e] at hr
  rw [← Except.ok.inj hr] at ht
  have hdet : (spiceToMantid * ub).det ≠ 0 := by
    rw [Matrix.det_mul]
    exact mul_ne_zero (by simp [spiceToMantid, Matrix.det_fin_three]) hd.invertible
  have hlen : len (spiceToMantid *ᵥ n) = 1 := by
    have h1 := axes_dot n n
    rw [hn] at h1
    unfold Spec.len
    rw [show (spiceToMantid *ᵥ n) 0 ^ 2 + (spiceToMantid *ᵥ n) 1 ^ 2 + (spiceToMantid *ᵥ n) 2 ^ 2 = 1 by
      rw [← h1]; simp only [dotProduct, Fin.sum_univ_three]; ring]
    exact Real.sqrt_one
  refine C09_huber_roundtrip_partial (c := spiceConf ub n) (ub := spiceToMantid * ub) (n := spiceToMantid *ᵥ n)
    ⟨by rw [ht]; rfl, rfl, hdet, b, by rw [ht]; exact hb, by rw [axes_gram]; exact hcons⟩ rfl hlen ?_ hmode ha hl
  rw [← Matrix.mulVec_mulVec]
  unfold Spec.TiltClear
  rw [axes_dot, axes_cross_len]
  exact hclear.imp id fun ⟨h1, h2⟩ => ⟨h1, .inl h2⟩

theorem finiteOf_fin (l : List ℝ) : finiteOf (l.map some) = some l := by
  unfold finiteOf
  induction l with
  | nil => rfl
  | cons x l ih => rw [List.map_cons, List.mapM_cons, ih]; rfl

/-- **C85**, what is refused: for a header with a UB matrix and without lattice constants (`TypeError`), with another number
of them (`UnboundLocalError`), with impossible ones (`ValueError`). -/
theorem C85_refused (i : SampleUBInfo) :
    (i.lattice = none → sampleFromInfo i = .error .typeError) ∧
    (∀ l, i.lattice = some (.leaf (.fin l)) → l.length ≠ 6 → sampleFromInfo i = .error .unboundLocal) ∧
    (∀ L : Latt, i.lattice = some (.leaf (.fin [L.a, L.b, L.c, L.alpha, L.beta, L.gamma])) → ¬ Acceptable L →
      sampleFromInfo i = .error .valueError) := by
  refine ⟨fun h => by rw [sampleFromInfo, h]; rfl, fun l h hl => ?_, fun L h hL => ?_⟩
  · rw [sampleFromInfo, h]
    have : unpackLatt (.nums l) = .error .unboundLocal := by
      unfold unpackLatt
      split
      · exact absurd (Cfg.nums.inj (by assumption) ▸ rfl : l.length = 6) hl
      all_goals first | rfl | contradiction | (rename_i h0 _ _; exact (h0 l rfl).elim)
    have e : cfgOf (some (.leaf (.fin l))) = .nums l := by rw [cfgOf, finiteOf_fin]; rfl
    rw [e, this]; rfl
  · have e1 : unpackLatt (cfgOf i.lattice) = .ok L := by rw [h]; rfl
    have : newSample L = .error .valueError := by
      unfold newSample Sample.validLatt
      split
      · rfl
      · split
        · rfl
        · rename_i h1 h2
          refine absurd (validLatt_ok.1 ?_) hL
          rw [Sample.validLatt, if_neg h1, if_neg h2]
    rw [sampleFromInfo, e1, py_bind_ok, this]; rfl

/-- **C85 fails**: without a plane normal in the header there is no sample at all, though the normal is optional for one. -/
theorem C85_no_normal_fails (i : SampleUBInfo) {L : Latt}
    (hl : i.lattice = some (.leaf (.fin [L.a, L.b, L.c, L.alpha, L.beta, L.gamma]))) (hL : Acceptable L) (hn : i.normal = none) :
    sampleFromInfo i = .error .typeError := by
  have e1 : unpackLatt (cfgOf i.lattice) = .ok L := by rw [hl]; rfl
  rw [sampleFromInfo, e1, py_bind_ok, newSample_ok hL, py_bind_ok, hn]; rfl

end Tavi
