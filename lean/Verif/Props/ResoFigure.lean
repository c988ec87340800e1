import Verif.Model.ResoFigure
import Verif.Props.Plot2DShown
import Verif.Props.Demo

/-!
# What the figure of the resolution ellipses shows (C100)
-/

namespace Tavi

open Matrix Spec Spec2

/-! ## The words of the property -/

namespace Spec

/-- The point `q` on axes at this angle is drawn at `p`; angles that differ from 90 degrees by not more than 0.0109 count as 90. -/
def DrawnAt (angle : ℝ) (q p : ℝ × ℝ) : Prop :=
  (|angle - 90| ≤ 0.0109 → p = q) ∧ (¬ |angle - 90| ≤ 0.0109 → OnAxes angle q p)

/-- The contour at half height of the Gaussian with this matrix about `c`. -/
def HalfHeight (S : Mat 2 2) (c q : ℝ × ℝ) : Prop := Real.exp (-(1 / 2) * qform S ![q.1 - c.1, q.2 - c.2]) = 1 / 2

/-- The points drawn are 128 points of this contour. -/
def Contour (S : Mat 2 2) (c : ℝ × ℝ) (angle : ℝ) (pts : List (ℝ × ℝ)) : Prop :=
  pts.length = 128 ∧ ∀ p ∈ pts, ∃ q, DrawnAt angle q p ∧ HalfHeight S c q

/-- The energy is the coordinate number `n` of an ellipsoid. -/
def EnergyAt (e : Ellipsoid) (n : Fin 4) : Prop :=
  e.axes = none ∧ n = 3 ∨ ∃ ax, e.axes = some ax ∧ ax[n.val]? = some (.name "en".toList) ∧
    ∀ k < n.val, ax[k]? ≠ some (.name "en".toList)

/-- The coordinates of an ellipsoid: those of the momentum, and the energy in its place. -/
def coords (e : Ellipsoid) (n : Fin 4) : Fin 4 → ℝ := n.insertNth e.en e.qVec

/-- The full width at half maximum of the projection to one axis. -/
noncomputable def width (M : Mat 4 4) (k : Fin 4) : ℝ := 2 * √(2 * Real.log 2) * √(M⁻¹ k k)

/-- Black lines of this style; with this label in the panel that has the legend. -/
def black (style label : String) (legend : Prop) [Decidable legend] : Fmt :=
  if legend then [("c".toList, "k".toList), ("linestyle".toList, style.toList), ("label".toList, label.toList)]
  else [("c".toList, "k".toList), ("linestyle".toList, style.toList)]

/-- A panel for the axes `x` and `y`: the projection of the resolution function (dashed), a cut through it (solid), the limits, the
labels of the axes. -/
structure ShowsPair (e : Ellipsoid) (n : Fin 4) (labels : Fin 4 → Str) (x y : Fin 4) (p : Panel) : Prop where
  angle : p.gridAngle = pairAngle e.angles x y
  drawn : ∃ (P : Mat 2 2) (dashed solid : List (ℝ × ℝ)), SPD P ∧ P⁻¹ = (e.mat⁻¹).submatrix ![x, y] ![x, y] ∧
    Contour P (coords e n x, coords e n y) p.gridAngle dashed ∧
    Contour (e.mat.submatrix ![x, y] ![x, y]) (coords e n x, coords e n y) p.gridAngle solid ∧
    p.calls = [.line dashed (black "dashed" "Incoherent" (x = 2 ∧ y = 3)), .line solid (black "solid" "Coherent" (x = 2 ∧ y = 3)),
      .xlim (coords e n x - width e.mat x * 0.6, coords e n x + width e.mat x * 0.6),
      .ylim (coords e n y - width e.mat y * 0.6, coords e n y + width e.mat y * 0.6),
      .title [], .xlabel (labels x), .ylabel (labels y), .grid] ++ if x = 2 ∧ y = 3 then [.legend] else []

/-- A point is drawn in a panel. -/
def PointIn (p : Panel) (pt : ℝ × ℝ) : Prop := ∃ pts f, Ax2Call.line pts f ∈ p.calls ∧ pt ∈ pts

/-- A point can be seen in a panel: it is within the limits. -/
def Visible (p : Panel) (pt : ℝ × ℝ) : Prop :=
  (∀ l, Ax2Call.xlim l ∈ p.calls → l.1 < pt.1 ∧ pt.1 < l.2) ∧ ∀ l, Ax2Call.ylim l ∈ p.calls → l.1 < pt.2 ∧ pt.2 < l.2

end Spec

theorem figFmt_black (x y : Fin 4) (style label : String) : figFmt x y style label = black style label (x = 2 ∧ y = 3) := by
  unfold figFmt black
  split <;> rfl

/-! ## The ellipses -/

theorem coords_list (e : Ellipsoid) (n k : Fin 4) : (insertEn e.qVec n.val e.en)[k.val]? = some (coords e n k) := by
  fin_cases n <;> fin_cases k <;> rfl

theorem enIdx_ok {e : Ellipsoid} {n : Fin 4} (h : EnergyAt e n) : enIdxOr3 e.axes = .ok n.val := by
  rcases h with ⟨h, rfl⟩ | ⟨ax, h, h1, h2⟩
  · rw [h]; rfl
  · rw [h]
    unfold enIdxOr3 enIndex
    dsimp only
    obtain ⟨hl, h1⟩ := List.getElem?_eq_some_iff.1 h1
    have hi : (ax.findIdx fun a => match a with
        | .name s => decide (s = "en".toList)
        | .vec _ => false) = n.val := by
      rw [List.findIdx_eq hl]
      refine ⟨by rw [h1]; simp, fun k hk => ?_⟩
      have := h2 k hk
      rw [List.getElem?_eq_getElem (hk.trans hl)] at this
      cases ha : ax[k]'(hk.trans hl) with
      | vec v => rfl
      | name s =>
        rw [ha] at this
        simpa using fun hs : s = "en".toList => this (by rw [hs])
    have hall : ∀ i : ℕ, i = n.val → (if i < ax.length then (.ok i : Py ℕ) else .error .valueError) = .ok n.val := fun i hi => by
      rw [hi, if_pos hl]
    exact hall _ hi

theorem centreAt_ok (e : Ellipsoid) (n k : Fin 4) : centreAt true (insertEn e.qVec n.val e.en) k.val = .ok (coords e n k) := by
  unfold centreAt
  rw [if_pos rfl, coords_list, need_some]

theorem getEllipse_cut {e : Ellipsoid} {n i j : Fin 4} (hn : EnergyAt e n) (hij : i < j) :
    getEllipse e i j false true = .ok ⟨⟨2, e.mat.submatrix ![i, j] ![i, j]⟩, coords e n i, coords e n j, pairAngle e.angles i j⟩ := by
  unfold getEllipse
  rw [enIdx_ok hn, py_bind_ok]
  dsimp only
  rw [centreAt_ok, py_bind_ok, centreAt_ok, py_bind_ok, cut_fold _ hij.ne, py_bind_ok, min_eq_left hij.le, max_eq_right hij.le]
  rfl

theorem getEllipse_proj {e : Ellipsoid} {n i j : Fin 4} (hn : EnergyAt e n) (hij : i < j) (hm : SPD e.mat)
    (hV : ∀ i, e.mat⁻¹ i i ≤ 1e8) :
    ∃ P : Mat 2 2, getEllipse e i j true true = .ok ⟨⟨2, P⟩, coords e n i, coords e n j, pairAngle e.angles i j⟩ ∧ SPD P ∧
      P⁻¹ = (e.mat⁻¹).submatrix ![i, j] ![i, j] := by
  have aux : ∀ l : List ℕ, ([3, 2, 1, 0].filter fun k => decide (k ≠ i.val ∧ k ≠ j.val)) = l → Valid 4 l → keptAxes 4 l = [i, j] →
      ∃ P : Mat 2 2, getEllipse e i j true true = .ok ⟨⟨2, P⟩, coords e n i, coords e n j, pairAngle e.angles i j⟩ ∧ SPD P ∧
        P⁻¹ = (e.mat⁻¹).submatrix ![i, j] ![i, j] := by
    intro l hl hv hk
    obtain ⟨⟨d, m⟩, hr, hst⟩ := stage_fold hV l (stage_start hm) hv
    have hst : Stage e.mat⁻¹ ⟨d, m⟩ [i, j] := hk ▸ hst
    have hd : d = 2 := hst.len
    subst hd
    refine ⟨m, ?_, hst.spd, ?_⟩
    · unfold getEllipse
      rw [enIdx_ok hn, py_bind_ok]
      dsimp only
      rw [centreAt_ok, py_bind_ok, centreAt_ok, py_bind_ok, proj_skip hij, hl, hr, py_bind_ok]
      rfl
    · ext a b
      rw [hst.inv a b]
      fin_cases a <;> fin_cases b <;> rfl
  fin_cases i <;> fin_cases j <;> simp at hij
  · exact aux [3, 2] (by decide) ⟨by decide, by decide, trivial⟩ (by decide)
  · exact aux [3, 1] (by decide) ⟨by decide, by decide, trivial⟩ (by decide)
  · exact aux [2, 1] (by decide) ⟨by decide, by decide, trivial⟩ (by decide)
  · exact aux [3, 0] (by decide) ⟨by decide, by decide, trivial⟩ (by decide)
  · exact aux [2, 0] (by decide) ⟨by decide, by decide, trivial⟩ (by decide)
  · exact aux [1, 0] (by decide) ⟨by decide, by decide, trivial⟩ (by decide)

theorem line_drawn {f : Fmt} {e : EllipseObj} (he : Decomposed e) (ha : ∀ n : ℤ, e.angle ≠ 180 * n) :
    ∃ pts, ellipseCall f (.ellipse e) = .ok [.line pts f] ∧ Contour e.mat e.centre e.angle pts := by
  obtain ⟨cs, hcs⟩ := ellipseCall_total (f := f) he ha
  obtain ⟨c, rfl, hc⟩ := ellipseCall_ok he (fun _ => rfl) hcs
  have hl : ∃ pts, c = .line pts f := by
    rw [ellipseCall] at hcs
    obtain ⟨pts, -, h⟩ := py_bind_eq_ok.1 hcs
    obtain ⟨pts', -, h⟩ := map_eq_ok.1 h
    exact ⟨pts', (List.cons.inj h).1.symm⟩
  obtain ⟨pts, rfl⟩ := hl
  refine ⟨pts, hcs, ?_⟩
  cases hc with
  | mk _ _ _ _ h1 h2 => exact ⟨h1, fun p hp => by obtain ⟨q, h3, h4, h5⟩ := h2 p hp; exact ⟨q, ⟨h3, h4⟩, h5⟩⟩

/-! ## The panels -/

/-- `la.eig` gives eigenvalues and orthonormal eigenvectors of symmetric positive definite matrices. -/
def Spec.EigRight (eig : Mat 2 2 → (Fin 2 → ℝ) × Mat 2 2) : Prop :=
  ∀ S, SPD S → S * (eig S).2 = (eig S).2 * diagonal (eig S).1 ∧ (eig S).2ᵀ * (eig S).2 = 1

section
variable {eig : Mat 2 2 → (Fin 2 → ℝ) × Mat 2 2} {labels : Fin 4 → Str} {e : Ellipsoid} {n : Fin 4}

theorem sub_inj {i j : Fin 4} (hij : i < j) : Function.Injective (![i, j] : Fin 2 → Fin 4) := by
  intro a b h
  fin_cases a <;> fin_cases b <;> simp at h ⊢
  · exact hij.ne h
  · exact hij.ne h.symm

theorem one_label (l : Str) : joinStr ", ".toList (sortStr ([l, l].dedup)) = l := by
  have : [l, l].dedup = [l] := by simp
  rw [this]
  rfl

theorem labels_once (user : Option Str) (hu : user = none) (lab : Obj2 → Py (Option Str)) (a b : Obj2) (l : Str) (mk : Str → Ax2Call)
    (ha : lab a = .ok (some l)) (hb : lab b = .ok (some l)) : labelOf user lab [a, b] mk = .ok [mk l] := by
  rw [hu]
  unfold labelOf
  dsimp only
  rw [List.mapM_cons, ha, List.mapM_cons, hb]
  change Except.ok [mk (joinStr ", ".toList (sortStr ([l, l].dedup)))] = _
  rw [one_label]

theorem figPanel_ok (hE : EigRight eig) (hn : EnergyAt e n) (hm : SPD e.mat) (hV : ∀ i, e.mat⁻¹ i i ≤ 1e8) {i j : Fin 4} (hij : i < j)
    (ha : ∀ k : ℤ, pairAngle e.angles i j ≠ 180 * k) (m : ℕ) :
    ∃ p, figPanel eig labels e m (i, j) = .ok p ∧ p.place = m + 1 ∧ ShowsPair e n labels i j p := by
  obtain ⟨P, hP, hPs, hPi⟩ := getEllipse_proj hn hij hm hV
  have hC := getEllipse_cut hn hij
  have hCs : SPD (e.mat.submatrix ![i, j] ![i, j]) := hm.sub (sub_inj hij)
  obtain ⟨-, wx, -, hwx, -, ewx, -⟩ := C25_widths hm hV i
  obtain ⟨-, wy, -, hwy, -, ewy, -⟩ := C25_widths hm hV j
  set inco : EllipseObj := ⟨P, (eig P).1, (eig P).2, (coords e n i, coords e n j), pairAngle e.angles i j, some (labels i), some (labels j)⟩
    with hinco
  set co : EllipseObj := ⟨e.mat.submatrix ![i, j] ![i, j], (eig (e.mat.submatrix ![i, j] ![i, j])).1,
    (eig (e.mat.submatrix ![i, j] ![i, j])).2, (coords e n i, coords e n j), pairAngle e.angles i j, some (labels i), some (labels j)⟩
    with hco
  have k1 : figEllipse eig labels e i j true = .ok inco := by
    unfold figEllipse
    rw [hP, py_bind_ok]
    rfl
  have k2 : figEllipse eig labels e i j false = .ok co := by
    unfold figEllipse
    rw [hC, py_bind_ok]
    rfl
  obtain ⟨dashed, hd, hdc⟩ := line_drawn (f := figFmt i j "dashed" "Incoherent") (e := inco) ⟨hPs, (hE P hPs).1, (hE P hPs).2⟩ ha
  obtain ⟨solid, hs, hsc⟩ := line_drawn (f := figFmt i j "solid" "Coherent") (e := co) ⟨hCs, (hE _ hCs).1, (hE _ hCs).2⟩ ha
  have kf : ∀ s t, assocUpdate ([] : Fmt) (figFmt i j s t) = figFmt i j s t := by
    intro s t
    unfold figFmt
    split <;> rfl
  have hcalls : (Plots2.run (figObj inco co) ⟨fun _ => [], fun _ => Plot2D.new⟩ (figOps i j co.centre wx wy)).calls (figObj inco co) 0 =
      .ok ([.line dashed (figFmt i j "dashed" "Incoherent"), .line solid (figFmt i j "solid" "Coherent"),
        .xlim (coords e n i - wx * 0.6, coords e n i + wx * 0.6), .ylim (coords e n j - wy * 0.6, coords e n j + wy * 0.6),
        .title [], .xlabel (labels i), .ylabel (labels j), .grid] ++ (if i = 2 ∧ j = 3 then [.legend] else []), none) := by
    set w := Plots2.run (figObj inco co) ⟨fun _ => [], fun _ => Plot2D.new⟩ (figOps i j co.centre wx wy) with hw
    have h0 : w.fmt 0 = figFmt i j "dashed" "Incoherent" := kf _ _
    have h1 : w.fmt 1 = figFmt i j "solid" "Coherent" := kf _ _
    have hp : w.plots 0 = ⟨[], [], [0, 1], some [], none, none, some (coords e n i - wx * 0.6, coords e n i + wx * 0.6),
        some (coords e n j - wy * 0.6, coords e n j + wy * 0.6)⟩ := rfl
    unfold Plots2.calls
    rw [hp]
    dsimp only
    have e0 : ellipseCall (w.fmt 0) (figObj inco co 0) = .ok [.line dashed (figFmt i j "dashed" "Incoherent")] := by
      rw [h0]; exact hd
    have e1 : ellipseCall (w.fmt 1) (figObj inco co 1) = .ok [.line solid (figFmt i j "solid" "Coherent")] := by
      rw [h1]; exact hs
    rw [List.mapM_cons, e0, py_bind_ok, List.mapM_cons, e1, py_bind_ok, List.mapM_nil]
    rw [if_pos (by simp)]
    have l1 : labelOf none Obj2.xlab (List.map (figObj inco co) [0, 1]) Ax2Call.xlabel = .ok [.xlabel (labels i)] :=
      labels_once none rfl _ _ _ _ _ rfl rfl
    have l2 : labelOf none Obj2.ylab (List.map (figObj inco co) [0, 1]) Ax2Call.ylabel = .ok [.ylabel (labels j)] :=
      labels_once none rfl _ _ _ _ _ rfl rfl
    rw [l1, l2]
    have hleg : (([] ++ [0, 1] ++ [] : List ℕ).any fun o => (lookupKey "label".toList (w.fmt o)).isSome) = decide (i = 2 ∧ j = 3) := by
      rw [List.append_nil, List.nil_append, List.any_cons, List.any_cons, List.any_nil, h0, h1]
      unfold figFmt
      by_cases h : i = 2 ∧ j = 3
      · rw [if_pos h, decide_eq_true h]; rfl
      · rw [if_neg h, if_neg h, decide_eq_false h]; rfl
    rw [hleg]
    by_cases h : i = 2 ∧ j = 3
    · rw [if_pos h, if_pos (decide_eq_true h)]; rfl
    · rw [if_neg h, if_neg (by simpa using h)]; rfl
  have hfig : ∀ cs, (Plots2.run (figObj inco co) ⟨fun _ => [], fun _ => Plot2D.new⟩ (figOps i j co.centre wx wy)).calls (figObj inco co) 0 =
      .ok (cs, none) → figPanel eig labels e m (i, j) = .ok ⟨m + 1, pairAngle e.angles i j, cs⟩ := by
    intro cs h
    unfold figPanel
    dsimp only
    rw [k1, py_bind_ok, k2, py_bind_ok, hwx, py_bind_ok, hwy, py_bind_ok, h, py_bind_ok]
    rfl
  refine ⟨_, hfig _ hcalls, rfl, rfl, P, dashed, solid, hPs, hPi, hdc, hsc, ?_⟩
  dsimp only
  rw [ewx, ewy, figFmt_black, figFmt_black]
  rfl

/-- **C100**: the figure has six panels, one for every pair of axes, and each of them shows the projection and the cut of the resolution
function, with their limits and labels. -/
theorem C100_panels (hE : EigRight eig) (hn : EnergyAt e n) (hm : SPD e.mat) (hV : ∀ i, e.mat⁻¹ i i ≤ 1e8)
    (ha : ∀ i j, ∀ k : ℤ, pairAngle e.angles i j ≠ 180 * k) :
    ∃ panels, plotEllipses eig labels e = .ok panels ∧ panels.map Panel.place = [1, 2, 3, 4, 5, 6] ∧
      (∀ x y, x < y → ∃ p ∈ panels, ShowsPair e n labels x y p) ∧
      ∀ p ∈ panels, ∃ x y, x < y ∧ ShowsPair e n labels x y p := by
  obtain ⟨p0, a0, b0, c0⟩ := figPanel_ok (labels := labels) hE hn hm hV (i := 0) (j := 3) (by decide) (ha _ _) 0
  obtain ⟨p1, a1, b1, c1⟩ := figPanel_ok (labels := labels) hE hn hm hV (i := 1) (j := 3) (by decide) (ha _ _) 1
  obtain ⟨p2, a2, b2, c2⟩ := figPanel_ok (labels := labels) hE hn hm hV (i := 2) (j := 3) (by decide) (ha _ _) 2
  obtain ⟨p3, a3, b3, c3⟩ := figPanel_ok (labels := labels) hE hn hm hV (i := 0) (j := 1) (by decide) (ha _ _) 3
  obtain ⟨p4, a4, b4, c4⟩ := figPanel_ok (labels := labels) hE hn hm hV (i := 1) (j := 2) (by decide) (ha _ _) 4
  obtain ⟨p5, a5, b5, c5⟩ := figPanel_ok (labels := labels) hE hn hm hV (i := 0) (j := 2) (by decide) (ha _ _) 5
  refine ⟨[p0, p1, p2, p3, p4, p5], ?_, ?_, ?_, ?_⟩
  · unfold plotEllipses
    have : figPairs.zipIdx = [((0, 3), 0), ((1, 3), 1), ((2, 3), 2), ((0, 1), 3), ((1, 2), 4), ((0, 2), 5)] := rfl
    rw [this, List.mapM_cons, a0, py_bind_ok, List.mapM_cons, a1, py_bind_ok, List.mapM_cons, a2, py_bind_ok,
      List.mapM_cons, a3, py_bind_ok, List.mapM_cons, a4, py_bind_ok, List.mapM_cons, a5, py_bind_ok, List.mapM_nil]
    rfl
  · simp [b0, b1, b2, b3, b4, b5]
  · intro x y hxy
    fin_cases x <;> fin_cases y <;> simp at hxy
    · exact ⟨p3, by simp, c3⟩
    · exact ⟨p5, by simp, c5⟩
    · exact ⟨p0, by simp, c0⟩
    · exact ⟨p4, by simp, c4⟩
    · exact ⟨p1, by simp, c1⟩
    · exact ⟨p2, by simp, c2⟩
  · intro p hp
    simp only [List.mem_cons, List.not_mem_nil, or_false] at hp
    rcases hp with rfl | rfl | rfl | rfl | rfl | rfl
    · exact ⟨0, 3, by decide, c0⟩
    · exact ⟨1, 3, by decide, c1⟩
    · exact ⟨2, 3, by decide, c2⟩
    · exact ⟨0, 1, by decide, c3⟩
    · exact ⟨1, 2, by decide, c4⟩
    · exact ⟨0, 2, by decide, c5⟩

/-! ## What can be seen -/

theorem Spec.SPD.coord_sq {d : ℕ} {M : Mat d d} (h : SPD M) (x : Fin d → ℝ) (i : Fin d) : x i ^ 2 ≤ qform M x * M⁻¹ i i := by
  have hN := h.inv.diag_pos i
  set b : Fin d → ℝ := Pi.single i 1 with hb
  set u := M⁻¹ *ᵥ b with hu
  have hMu : M *ᵥ u = b := by rw [hu, mulVec_mulVec, mul_nonsing_inv _ h.unit, one_mulVec]
  have hbi : ∀ v : Fin d → ℝ, v ⬝ᵥ b = v i := fun v => by rw [hb, dotProduct_single, mul_one]
  have hui : u i = M⁻¹ i i := by rw [hu, hb, mulVec_single_one]; rfl
  have hT : Mᵀ = M := by ext a b; exact h.symm b a
  have huM : u ⬝ᵥ (M *ᵥ x) = x i := by rw [dotProduct_mulVec, ← mulVec_transpose, hT, hMu, dotProduct_comm, hbi]
  have key : 0 ≤ qform M (x - (x i / M⁻¹ i i) • u) := by
    by_cases hz : x - (x i / M⁻¹ i i) • u = 0
    · rw [hz]; simp [qform]
    · exact (h.pos _ hz).le
  rw [qform_eq, mulVec_sub, mulVec_smul, hMu, sub_dotProduct, dotProduct_sub, dotProduct_sub, dotProduct_smul,
    smul_dotProduct, smul_dotProduct, dotProduct_smul, huM, hbi, hbi, hui, ← qform_eq] at key
  simp only [smul_eq_mul] at key
  have e1 : x i / M⁻¹ i i * (x i / M⁻¹ i i * M⁻¹ i i) = x i / M⁻¹ i i * x i := by field_simp
  rw [e1] at key
  have e2 : x i / M⁻¹ i i * x i * M⁻¹ i i = x i ^ 2 := by field_simp
  nlinarith

theorem halfHeight_form {S : Mat 2 2} {c q : ℝ × ℝ} (h : HalfHeight S c q) : qform S ![q.1 - c.1, q.2 - c.2] = 2 * Real.log 2 := by
  have := congrArg Real.log h
  rw [Real.log_exp, one_div, Real.log_inv] at this
  linarith

theorem abs_le_width {M : Mat 4 4} {k : Fin 4} {t : ℝ} (h : t ^ 2 ≤ 2 * Real.log 2 * M⁻¹ k k) :
    |t| ≤ width M k / 2 := by
  have hl : 0 < Real.log 2 := Real.log_pos (by norm_num)
  have : width M k / 2 = √(2 * Real.log 2 * M⁻¹ k k) := by
    unfold width
    rw [show √(2 * Real.log 2 * M⁻¹ k k) = √(2 * Real.log 2) * √(M⁻¹ k k) from Real.sqrt_mul (by positivity) _]
    ring
  rw [this]
  exact Real.abs_le_sqrt h

theorem width_pos {M : Mat 4 4} (h : SPD M) (k : Fin 4) : 0 < width M k := by
  have hl : 0 < Real.log 2 := Real.log_pos (by norm_num)
  have := h.inv.diag_pos k
  unfold width
  positivity

/-- Both contours are within half of the widths. -/
theorem contour_within (hm : SPD e.mat) {i j : Fin 4} (hij : i < j) {p : Panel} (hp : ShowsPair e n labels i j p) {pt : ℝ × ℝ}
    (h : PointIn p pt) : ∃ q : ℝ × ℝ, DrawnAt p.gridAngle q pt ∧ |q.1 - coords e n i| ≤ width e.mat i / 2 ∧
      |q.2 - coords e n j| ≤ width e.mat j / 2 := by
  obtain ⟨P, dashed, solid, hPs, hPi, hd, hs, hc⟩ := hp.drawn
  obtain ⟨pts, f, hmem, hpt⟩ := h
  rw [hc] at hmem
  have hcase : pts = dashed ∨ pts = solid := by
    rcases List.mem_append.1 hmem with h | h
    · simp at h
      tauto
    · split at h <;> simp at h
  rcases hcase with rfl | rfl
  · obtain ⟨q, hq, hh⟩ := hd.2 pt hpt
    have hf := halfHeight_form hh
    have c0 := hPs.coord_sq ![q.1 - coords e n i, q.2 - coords e n j] 0
    have c1 := hPs.coord_sq ![q.1 - coords e n i, q.2 - coords e n j] 1
    dsimp only at hf
    rw [hf, hPi] at c0 c1
    exact ⟨q, hq, abs_le_width c0, abs_le_width c1⟩
  · obtain ⟨q, hq, hh⟩ := hs.2 pt hpt
    have hf := halfHeight_form hh
    dsimp only at hf
    set v : Fin 4 → ℝ := fun k => if k = i then q.1 - coords e n i else if k = j then q.2 - coords e n j else 0 with hv
    have hq4 : qform e.mat v = 2 * Real.log 2 := by
      rw [← hf, qform, qform, hv]
      fin_cases i <;> fin_cases j <;> simp at hij <;> simp [Fin.sum_univ_four, Fin.sum_univ_two]
    have c0 := hm.coord_sq v i
    have c1 := hm.coord_sq v j
    have v0 : v i = q.1 - coords e n i := by rw [hv]; simp
    have v1 : v j = q.2 - coords e n j := by rw [hv]; simp [hij.ne']
    rw [hq4, v0] at c0
    rw [hq4, v1] at c1
    exact ⟨q, hq, abs_le_width c0, abs_le_width c1⟩

theorem limits_of {i j : Fin 4} {p : Panel} (hp : ShowsPair e n labels i j p) : (∀ l, Ax2Call.xlim l ∈ p.calls ↔
      l = (coords e n i - width e.mat i * 0.6, coords e n i + width e.mat i * 0.6)) ∧
    ∀ l, Ax2Call.ylim l ∈ p.calls ↔ l = (coords e n j - width e.mat j * 0.6, coords e n j + width e.mat j * 0.6) := by
  obtain ⟨P, dashed, solid, _, _, _, _, hc⟩ := hp.drawn
  rw [hc]
  constructor <;> intro l <;> split <;> simp

/-- **C100**: on axes at a right angle both ellipses can be seen completely. -/
theorem C100_seen_partial (hm : SPD e.mat) {i j : Fin 4} (hij : i < j) {p : Panel} (hp : ShowsPair e n labels i j p)
    (hr : |p.gridAngle - 90| ≤ 0.0109) (pt : ℝ × ℝ) (h : PointIn p pt) : Visible p pt := by
  obtain ⟨q, hq, hx, hy⟩ := contour_within hm hij hp h
  obtain rfl := hq.1 hr
  have wi := width_pos hm i
  have wj := width_pos hm j
  rw [abs_le] at hx hy
  refine ⟨fun l hl => ?_, fun l hl => ?_⟩
  · rw [((limits_of hp).1 l).1 hl]
    dsimp only
    constructor <;> linarith
  · rw [((limits_of hp).2 l).1 hl]
    dsimp only
    constructor <;> linarith

/-- **C100**, whatever the angle: the heights are within the limits, but the ellipses are drawn around a point that is beside the
centre of the panel by the vertical coordinate times the cotangent of the angle. -/
theorem C100_shift (hm : SPD e.mat) {i j : Fin 4} (hij : i < j) {p : Panel} (hp : ShowsPair e n labels i j p)
    (hr : ¬ |p.gridAngle - 90| ≤ 0.0109) (hs : Real.sin (p.gridAngle / 180 * Real.pi) ≠ 0) (pt : ℝ × ℝ) (h : PointIn p pt) :
    |pt.2 - coords e n j| ≤ width e.mat j / 2 ∧
      |pt.1 - (coords e n i + coords e n j * Real.cot (p.gridAngle / 180 * Real.pi))| ≤
        width e.mat i / 2 + width e.mat j / 2 * |Real.cot (p.gridAngle / 180 * Real.pi)| := by
  obtain ⟨q, hq, hx, hy⟩ := contour_within hm hij hp h
  obtain ⟨h2, h1⟩ := hq.2 hr
  rw [h2]
  refine ⟨hy, ?_⟩
  have e1 : pt.1 = q.1 + q.2 * Real.cot (p.gridAngle / 180 * Real.pi) := by
    rw [Real.cot_eq_cos_div_sin, mul_div_assoc', ← sub_eq_iff_eq_add', eq_div_iff hs]
    exact h1
  have e2 : pt.1 - (coords e n i + coords e n j * Real.cot (p.gridAngle / 180 * Real.pi)) =
      (q.1 - coords e n i) + (q.2 - coords e n j) * Real.cot (p.gridAngle / 180 * Real.pi) := by rw [e1]; ring
  rw [e2]
  refine (abs_add_le _ _).trans (add_le_add hx ?_)
  rw [abs_mul]
  exact mul_le_mul_of_nonneg_right hy (abs_nonneg _)

/-- **C100**, the code disagrees: on skewed axes nothing of the ellipses can be seen once the shift is larger than the ellipses. -/
theorem C100_unseen (hm : SPD e.mat) {i j : Fin 4} (hij : i < j) {p : Panel} (hp : ShowsPair e n labels i j p)
    (hr : ¬ |p.gridAngle - 90| ≤ 0.0109) (hs : Real.sin (p.gridAngle / 180 * Real.pi) ≠ 0)
    (hbig : 1.1 * width e.mat i + width e.mat j / 2 * |Real.cot (p.gridAngle / 180 * Real.pi)| ≤
      |coords e n j * Real.cot (p.gridAngle / 180 * Real.pi)|) (pt : ℝ × ℝ) (h : PointIn p pt) : ¬ Visible p pt := by
  intro hv
  obtain ⟨-, hx⟩ := C100_shift hm hij hp hr hs pt h
  obtain ⟨v1, v2⟩ := hv.1 _ (((limits_of hp).1 _).2 rfl)
  dsimp only at v1 v2
  have h3 : |pt.1 - coords e n i| < width e.mat i * 0.6 := abs_lt.2 ⟨by linarith, by linarith⟩
  have h4 := abs_sub_abs_le_abs_sub (coords e n j * Real.cot (p.gridAngle / 180 * Real.pi)) (pt.1 - coords e n i)
  have h5 : |coords e n j * Real.cot (p.gridAngle / 180 * Real.pi) - (pt.1 - coords e n i)| =
      |pt.1 - (coords e n i + coords e n j * Real.cot (p.gridAngle / 180 * Real.pi))| := by
    rw [← abs_neg]
    congr 1
    ring
  rw [h5] at h4
  linarith

end

/-! ## A figure in which nothing is seen -/

namespace Demo

open Real in
theorem angle45 : IsAngleDeg (inSpace ![2 * π, 0, 0] ![0, 2 * π, 0] ![0, 0, 2 * π] ![1, 1, 0])
    (inSpace ![2 * π, 0, 0] ![0, 2 * π, 0] ![0, 0, 2 * π] ![0, 1, 0]) 45 := by
  have hpi := Real.pi_pos
  refine ⟨by norm_num, by norm_num, ?_⟩
  have e1 : len (inSpace ![2 * π, 0, 0] ![0, 2 * π, 0] ![0, 0, 2 * π] ![0, 1, 0]) = 2 * π := by
    simp [Spec.len, Spec.inSpace, Real.sqrt_sq (show 0 ≤ 2 * π by positivity)]
  have e2 : len (inSpace ![2 * π, 0, 0] ![0, 2 * π, 0] ![0, 0, 2 * π] ![1, 1, 0]) = 2 * π * √2 := by
    have : (0 : ℝ) ≤ √2 := Real.sqrt_nonneg 2
    simp [Spec.len, Spec.inSpace]
    rw [Real.sqrt_eq_iff_mul_self_eq (by positivity) (by positivity)]
    have := Real.mul_self_sqrt (show (0:ℝ) ≤ 2 by norm_num)
    linear_combination (-4 * π ^ 2) * this
  rw [e1, e2, show 45 * π / 180 = π / 4 by ring, Real.cos_pi_div_four]
  simp [Spec.inSpace]
  have := Real.mul_self_sqrt (show (0:ℝ) ≤ 2 by norm_num)
  linear_combination (-2 * π ^ 2) * this

open Real in
theorem angle90 (u v : V3) (h : u ⬝ᵥ v = 0) : IsAngleDeg (inSpace ![2 * π, 0, 0] ![0, 2 * π, 0] ![0, 0, 2 * π] u)
    (inSpace ![2 * π, 0, 0] ![0, 2 * π, 0] ![0, 0, 2 * π] v) 90 := by
  refine ⟨by norm_num, by norm_num, ?_⟩
  rw [cos90]
  rw [dot3] at h
  simp [Spec.inSpace]
  linear_combination 4 * π ^ 2 * h

theorem inSpace_ne {v : V3} (hv : v ≠ 0) : inSpace ![2 * Real.pi, 0, 0] ![0, 2 * Real.pi, 0] ![0, 0, 2 * Real.pi] v ≠ 0 := by
  intro h
  apply hv
  have hpi := Real.pi_pos.ne'
  have h0 := congrFun h 0
  have h1 := congrFun h 1
  have h2 := congrFun h 2
  simp [Spec.inSpace, hpi] at h0 h1 h2
  exact ext3 h0 h1 h2

theorem embed4_det (m : M3) : (embed4 m).det = m.det := by
  rw [det_fin_three]
  simp [embed4, det_succ_row_zero, Fin.sum_univ_succ, Fin.succAbove]
  ring

/-- The ellipsoid of (1, 0, 0) in the axes (1, 1, 0), (0, 1, 0), (0, 0, 1) of a cubic crystal, with a width of about 0.24 along each
of the axes. -/
theorem skewed : ∃ (m : Mat 4 4) (e : Ellipsoid), SPD m ∧ mkEllipsoid (tas "Y,-Z,X" "-") ![1, 0, 0] 0
      (some (List.ofFn ![.vec ![1, 1, 0], .vec ![0, 1, 0], .vec ![0, 0, 1], .name "en".toList])) m 1 = .ok e ∧
    e.mat = (100 : ℝ) • (1 : Mat 4 4) ∧ e.angles = ![45, 90, 90] ∧ e.qVec = ![1, -1, 0] ∧
    e.axes = some (List.ofFn ![.vec ![1, 1, 0], .vec ![0, 1, 0], .vec ![0, 0, 1], .name "en".toList]) := by
  have hpi := Real.pi_pos
  obtain ⟨a, ha, _⟩ := reach100
  have hdef : ∀ m : Mat 4 4, ∃ e, mkEllipsoid (tas "Y,-Z,X" "-") ![1, 0, 0] 0
      (some (List.ofFn ![.vec ![1, 1, 0], .vec ![0, 1, 0], .vec ![0, 0, 1], .name "en".toList])) m 1 = .ok e := fun m =>
    C27_defined (t := tas "Y,-Z,X" "-") (m := m) (r0 := 1) (p1 := ![1, 1, 0]) (p2 := ![0, 1, 0]) (p3 := ![0, 0, 1]) (n := 3)
      (ax := List.ofFn ![.vec ![1, 1, 0], .vec ![0, 1, 0], .vec ![0, 0, 1], .name "en".toList]) cube_possible ha
      (by rw [ofFn4]; rfl) (by rw [ofFn4]; simp [enIndex, List.findIdx_cons]) cube_recip
      (by
        rw [inSpace_triple]
        simp only [dot3, cross]
        simp
        have := Real.two_le_pi
        nlinarith [mul_pos hpi hpi, mul_pos (mul_pos hpi hpi) hpi])
  have hax : ¬ (List.ofFn ![AxisItem.vec ![1, 1, 0], .vec ![0, 1, 0], .vec ![0, 0, 1], .name "en".toList]) = hklAxes := by
    intro h
    have := congrFun (hklAxes_ofFn h) 0
    simp at this
  -- the conversion does not depend on the matrix
  obtain ⟨e0, h0⟩ := hdef 1
  obtain ⟨conv, hconv, -⟩ := mkEllipsoid_cases h0
  obtain ⟨a', R, c, ub, psi, -, hR, hc, hub, -, hcv⟩ := hklToLocal_cases hconv
  have hub1 : ub = 1 := by
    obtain rfl := Option.some.inj hc
    exact (Option.some.inj hub).symm
  subst hub1
  have hRd : R.det = 1 := (C06_r_mat_rotation hR).1.2
  have hcd : conv.det ≠ 0 := by
    rw [hcv, det_mul, mul_one, det_smul, hRd]
    have : (labToLocal (deg2rad psi)).det = 1 := by
      rw [det_fin_three]
      simp [labToLocal]
      linear_combination Real.sin_sq_add_cos_sq (deg2rad psi)
    rw [this]
    simp [hpi.ne']
  set W : M3 := colMat ![1, 1, 0] ![0, 1, 0] ![0, 0, 1] with hW
  have hWd : W.det = 1 := by
    rw [hW, det_fin_three]
    simp [colMat]
  set E := embed4 (conv * W) with hE
  have hEd : IsUnit E.det := by
    rw [hE, embed4_det, det_mul, hWd, mul_one]
    exact hcd.isUnit
  set m : Mat 4 4 := (E⁻¹)ᵀ * ((100 : ℝ) • (1 : Mat 4 4)) * E⁻¹ with hm
  have hmE : Eᵀ * m * E = (100 : ℝ) • (1 : Mat 4 4) := by
    rw [hm]
    have h1 : Eᵀ * (E⁻¹)ᵀ = 1 := by rw [← transpose_mul, nonsing_inv_mul _ hEd, transpose_one]
    calc Eᵀ * ((E⁻¹)ᵀ * ((100 : ℝ) • (1 : Mat 4 4)) * E⁻¹) * E = (Eᵀ * (E⁻¹)ᵀ) * ((100 : ℝ) • (1 : Mat 4 4)) * (E⁻¹ * E) := by
          simp only [Matrix.mul_assoc]
      _ = _ := by rw [h1, nonsing_inv_mul _ hEd, one_mul, mul_one]
  have hms : SPD m := by
    rw [spd_iff, hm]
    have hinj : Function.Injective (E⁻¹).mulVec := by
      intro x y h
      have := congrArg (E *ᵥ ·) h
      simpa only [mulVec_mulVec, mul_nonsing_inv _ hEd, one_mulVec] using this
    have h1 : ((100 : ℝ) • (1 : Mat 4 4)).PosDef := PosDef.one.smul (by norm_num)
    have := h1.conjTranspose_mul_mul_same hinj
    rwa [conjTranspose_eq_transpose_of_trivial] at this
  obtain ⟨e, he⟩ := hdef m
  obtain ⟨conv', hconv', -, -, -, hea, -, hcase⟩ := mkEllipsoid_cases he
  rw [hconv] at hconv'
  obtain rfl := Except.ok.inj hconv'
  rcases hcase with ⟨h, -⟩ | ⟨-, hp⟩
  · exact absurd h hax
  obtain ⟨p1, p2, p3, ra, rb, rc, n, wi, a12, a23, a31, h3, hr, hn, -, hwi, hq, h12, h23, h31, han, hM⟩ := projCustom_cases hp
  have e3 : threeVecs (List.ofFn ![AxisItem.vec ![1, 1, 0], .vec ![0, 1, 0], .vec ![0, 0, 1], .name "en".toList]) =
      .ok (![1, 1, 0], ![0, 1, 0], ![0, 0, 1]) := by rw [ofFn4]; rfl
  rw [e3] at h3
  obtain ⟨rfl, rfl, rfl⟩ : ![1, 1, 0] = p1 ∧ ![0, 1, 0] = p2 ∧ ![0, 0, 1] = p3 := by simpa using h3
  change reciprocalSpaceVectors cube = _ at hr
  rw [cube_recip] at hr
  cases hr
  have en3 : enIndex (List.ofFn ![AxisItem.vec ![1, 1, 0], .vec ![0, 1, 0], .vec ![0, 0, 1], .name "en".toList]) = .ok 3 := by
    rw [ofFn4]; simp [enIndex, List.findIdx_cons]
  rw [en3] at hn
  obtain rfl := Except.ok.inj hn
  have n1 : (![1, 1, 0] : V3) ≠ 0 := fun h => by simpa using congrFun h 0
  have n2 : (![0, 1, 0] : V3) ≠ 0 := fun h => by simpa using congrFun h 1
  have n3 : (![0, 0, 1] : V3) ≠ 0 := fun h => by simpa using congrFun h 2
  have b12 : a12 = 45 := isAngleDeg_unique (inSpace_ne n1) (inSpace_ne n2) (angleVec_spec h12).2.2 angle45
  have b23 : a23 = 90 := isAngleDeg_unique (inSpace_ne n2) (inSpace_ne n3) (angleVec_spec h23).2.2 (angle90 _ _ (by simp))
  have b31 : a31 = 90 := isAngleDeg_unique (inSpace_ne n3) (inSpace_ne n1) (angleVec_spec h31).2.2 (angle90 _ _ (by simp))
  refine ⟨m, e, hms, he, ?_, by rw [han, b12, b23, b31], ?_, hea⟩
  · rw [hM, hmE]
    ext i j
    fin_cases i <;> fin_cases j <;> simp [roll, rollIdx]
  · rw [hq]
    have hs := matWInv_solves hwi ![1, 0, 0]
    have s0 := congrFun hs 0
    have s1 := congrFun hs 1
    have s2 := congrFun hs 2
    simp at s0 s1 s2
    exact ext3 (by simpa using s0) (by simp; linarith) (by simpa using s2)

/-- **C100** fails: a cubic crystal at (1, 0, 0), shown in the axes (1, 1, 0), (0, 1, 0), (0, 0, 1). In the panel of the first two axes
nothing of the ellipses drawn can be seen. -/
theorem _root_.Tavi.C100_lost : ∃ (t : Tas) (m : Mat 4 4) (e : Ellipsoid), SPD m ∧ mkEllipsoid t ![1, 0, 0] 0
      (some (List.ofFn ![.vec ![1, 1, 0], .vec ![0, 1, 0], .vec ![0, 0, 1], .name "en".toList])) m 1 = .ok e ∧
    ∀ eig labels, EigRight eig → ∃ panels, plotEllipses eig labels e = .ok panels ∧
      ∃ p ∈ panels, ShowsPair e 3 labels 0 1 p ∧ (∃ pt, PointIn p pt) ∧ ∀ pt, PointIn p pt → ¬ Visible p pt := by
  obtain ⟨m, e, hms, he, hmat, han, hq, hea⟩ := skewed
  refine ⟨_, m, e, hms, he, fun eig labels hE => ?_⟩
  have hen : EnergyAt e 3 := by
    refine .inr ⟨_, hea, ?_, ?_⟩
    · rw [ofFn4]; rfl
    · intro k hk
      rw [ofFn4]
      have : k = 0 ∨ k = 1 ∨ k = 2 := by
        have : k < 3 := hk
        omega
      rcases this with rfl | rfl | rfl <;> simp
  have hspd : SPD e.mat := by
    rw [hmat, spd_iff]
    exact PosDef.one.smul (by norm_num)
  have hinv : e.mat⁻¹ = (1 / 100 : ℝ) • (1 : Mat 4 4) := by
    rw [hmat]
    apply inv_eq_right_inv
    rw [smul_mul_smul_comm, one_mul]
    norm_num
  have hV : ∀ i, e.mat⁻¹ i i ≤ 1e8 := fun i => by rw [hinv]; simp; norm_num
  have r45 : round2 45 = 45 := by
    unfold round2
    rw [show (45 : ℝ) * 100 = ((4500 : ℤ) : ℝ) by norm_num, round_intCast]
    norm_num
  have r90 : round2 90 = 90 := by
    unfold round2
    rw [show (90 : ℝ) * 100 = ((9000 : ℤ) : ℝ) by norm_num, round_intCast]
    norm_num
  have hang : ∀ i j, pairAngle e.angles i j = 45 ∨ pairAngle e.angles i j = 90 := by
    intro i j
    unfold pairAngle
    rw [han]
    split
    · left; exact r45
    split
    · right; exact r90
    split
    · right; exact r90
    · right; rfl
  have h180 : ∀ i j, ∀ k : ℤ, pairAngle e.angles i j ≠ 180 * k := by
    intro i j k hk
    rcases hang i j with h | h
    · rw [h] at hk
      have : (45 : ℤ) = 180 * k := by exact_mod_cast hk
      omega
    · rw [h] at hk
      have : (90 : ℤ) = 180 * k := by exact_mod_cast hk
      omega
  obtain ⟨panels, hp, -, hall, -⟩ := C100_panels (labels := labels) hE hen hspd hV h180
  obtain ⟨p, hpm, hsp⟩ := hall 0 1 (by decide)
  refine ⟨panels, hp, p, hpm, hsp, ?_, ?_⟩
  · obtain ⟨P, dashed, solid, _, _, hd, _, hc⟩ := hsp.drawn
    have : dashed ≠ [] := fun h => by have := hd.1; rw [h] at this; simp at this
    obtain ⟨pt, hpt⟩ := List.exists_mem_of_ne_nil _ this
    exact ⟨pt, dashed, _, by rw [hc]; exact List.mem_append_left _ List.mem_cons_self, hpt⟩
  · have hg : p.gridAngle = 45 := by
      rw [hsp.angle]
      unfold pairAngle
      rw [han, if_pos (by decide)]
      exact r45
    have hrad : p.gridAngle / 180 * Real.pi = Real.pi / 4 := by rw [hg]; ring
    have hcot : Real.cot (p.gridAngle / 180 * Real.pi) = 1 := by
      rw [hrad, Real.cot_eq_cos_div_sin, Real.cos_pi_div_four, Real.sin_pi_div_four]
      exact div_self (by positivity)
    have hw : ∀ k, width e.mat k ≤ 0.3 := by
      intro k
      unfold width
      rw [hinv]
      have hl := Real.log_le_sub_one_of_pos (show (0 : ℝ) < 2 by norm_num)
      have h1 : √(2 * Real.log 2) ≤ 1.5 := by
        rw [Real.sqrt_le_left (by norm_num)]
        norm_num at hl ⊢
        linarith
      have h2 : √(((1 / 100 : ℝ) • (1 : Mat 4 4)) k k) = 0.1 := by
        rw [Real.sqrt_eq_iff_mul_self_eq (by simp) (by norm_num)]
        simp
        norm_num
      rw [h2]
      linarith
    refine C100_unseen hspd (by decide) hsp (by rw [hg]; norm_num [abs_of_neg]) ?_ ?_
    · rw [hrad, Real.sin_pi_div_four]
      positivity
    · rw [hcot]
      have hc : coords e 3 1 = -1 := by
        change e.qVec 1 = -1
        rw [hq]
        rfl
      rw [hc]
      have w0 := hw 0
      have w1 := hw 1
      norm_num
      linarith

end Demo

end Tavi
