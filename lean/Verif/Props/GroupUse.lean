import Verif.Props.Group

/-! # C35 (order of scans), C38 (subtraction), C39 (rebin parameters) -/

namespace Tavi

open Classical

/-! ## Appended scans exist (so `C37_concatenation_partial` applies to every group) -/

theorem lookup_filterMap {β γ : Type} (f : Str → Option γ) (name : Str) (l : List (Str × β)) :
    lookupKey name (l.filterMap fun kv => (f kv.1).map fun c => (kv.1, c)) =
      (lookupKey name l).bind fun _ => f name := by
  induction l with
  | nil => rfl
  | cons kv l ih =>
    obtain ⟨k, v⟩ := kv
    by_cases h : k = name
    · subst h
      cases hf : f k with
      | none => 
        simp only [List.filterMap_cons, hf, Option.map_none, lookupKey, if_true, Option.bind_some]
        rw [ih, hf]
        cases lookupKey k l <;> rfl
      | some c => simp [hf, lookupKey]
    · cases hf : f k with
      | none => simp [hf, lookupKey, h, ih]
      | some c => simp [hf, lookupKey, h, ih]

/-- Every non-empty group with one preset has an appended scan. -/
theorem appended_exists {scans : List Scan} (hne : scans ≠ []) {pr : Preset} (hp : ∀ s ∈ scans, s.preset = pr) :
    ∃ t, Spec.Appended scans t ∧ t.preset = pr := by
  obtain ⟨s0, l, rfl⟩ := List.exists_cons_of_ne_nil hne
  let f : Str → Option (List Num) := fun name =>
    if ∀ s ∈ s0 :: l, (lookupKey name s.data).isSome then
      some ((s0 :: l).flatMap fun s => (lookupKey name s.data).getD []) else none
  refine ⟨{ data := s0.data.filterMap fun kv => (f kv.1).map fun c => (kv.1, c), preset := pr }, ⟨fun name => ?_, hp⟩, rfl⟩
  dsimp only
  rw [lookup_filterMap]
  by_cases h : ∀ s ∈ s0 :: l, (lookupKey name s.data).isSome
  · left
    refine ⟨fun s => (lookupKey name s.data).getD [], fun s hs => ?_, ?_⟩
    · obtain ⟨c, hc⟩ := Option.isSome_iff_exists.1 (h s hs)
      simp only [hc, Option.getD_some]
    · obtain ⟨c, hc⟩ := Option.isSome_iff_exists.1 (h s0 (by simp))
      rw [hc]
      show f name = _
      exact if_pos h
  · right
    refine ⟨?_, ?_⟩
    · push Not at h
      obtain ⟨s, hs, h⟩ := h
      exact ⟨s, hs, by simpa using h⟩
    · have : f name = none := if_neg h
      rw [this]
      cases lookupKey name s0.data <;> rfl

/-! ## C35: order of the scans -/

/-- The columns of scan `s` that a request uses are those of the points `pts`. -/
def Spec.Measured (s : Scan) (x y ch : Str) (pts : List Spec.Pt) : Prop :=
  s.col x = .ok (pts.map fun p => some p.x) ∧ s.col y = .ok (pts.map fun p => some p.y) ∧
    s.col ch = .ok (Spec.monitors pts)

/-- The channel by which points are weighted: the requested one, else the preset. -/
def Spec.channel (normTo : Option (ℝ × Str)) (preset : Str) : Str := (normTo.map (·.2)).getD preset

/-- The 1D combination with rebinning of measured scans, in terms of all their points. -/
theorem combine1D_measured {scans : List Scan} (hne : scans ≠ []) {pts : Scan → List Spec.Pt} {x y ch0 : Str} {v0 : ℝ}
    {normTo : Option (ℝ × Str)} (hm : ∀ s ∈ scans, Spec.Measured s x y (Spec.channel normTo ch0) (pts s))
    (hp : ∀ s ∈ scans, s.preset = .normal ch0 v0) {grid tol : Option RebinArg} {a : RebinArg} {p : RebinParams}
    (hc : (chooseRebin grid tol).2 = some a) (ht : a.truthy = true) (hf : formatRebin a = .ok p) :
    combine1D scans x y normTo grid tol =
      match (chooseRebin grid tol).1, normTo with
      | false, none => (Spec.curve (scans.flatMap pts) none).rebinTol p (some (Spec.monitors (scans.flatMap pts)))
      | false, some n => (Spec.curve (scans.flatMap pts) none).rebinTolRenorm p (some (Spec.monitors (scans.flatMap pts))) n.1
      | true, none => (Spec.curve (scans.flatMap pts) none).rebinGrid p
      | true, some n => (Spec.curve (scans.flatMap pts) none).rebinGridRenorm p (some (Spec.monitors (scans.flatMap pts))) n.1 := by
  have hx := groupCol_ok fun s hs => (hm s hs).1
  have hy := groupCol_ok fun s hs => (hm s hs).2.1
  have hn := groupCol_ok fun s hs => (hm s hs).2.2
  have e1 : (scans.flatMap fun s => (pts s).map fun p => some p.x) = (scans.flatMap pts).map fun p => some p.x := by
    rw [List.map_flatMap]
  have e2 : (scans.flatMap fun s => (pts s).map fun p => some p.y) = (scans.flatMap pts).map fun p => some p.y := by
    rw [List.map_flatMap]
  have e3 : (scans.flatMap fun s => Spec.monitors (pts s)) = Spec.monitors (scans.flatMap pts) := by
    unfold Spec.monitors; rw [List.map_flatMap]
  rw [e1] at hx
  rw [e2] at hy
  rw [e3] at hn
  have hd := defaultRenorm_ok hne hp
  unfold combine1D
  rw [hx, hy, hd]
  simp only [py_bind_ok, curve_init]
  rcases hch : chooseRebin grid tol with ⟨g, params⟩
  rw [hch] at hc
  simp only at hc
  subst hc
  simp only [isFalsy, ht, Bool.not_true, Bool.false_eq_true, if_false, need_some, py_bind_ok, hf]
  cases g <;> cases normTo <;> simp only [Spec.channel, Option.map_none, Option.map_some, Option.getD_none,
    Option.getD_some] at hn <;> simp only [hn, py_bind_ok]

/-- **C35** The order in which the scans were put into a group does not matter for the rebinned 1D data. -/
theorem C35_scan_order {scans scans' : List Scan} (hperm : scans.Perm scans') (hne : scans ≠ [])
    {pts : Scan → List Spec.Pt} {x y ch0 : Str} {v0 : ℝ} {normTo : Option (ℝ × Str)}
    (hm : ∀ s ∈ scans, Spec.Measured s x y (Spec.channel normTo ch0) (pts s))
    (hp : ∀ s ∈ scans, s.preset = .normal ch0 v0) {grid tol : Option RebinArg} {a : RebinArg} {p : RebinParams}
    (hc : (chooseRebin grid tol).2 = some a) (ht : a.truthy = true) (hf : formatRebin a = .ok p) {mn mx step : ℝ}
    (hr : Spec.Range ((scans.flatMap pts).map (·.x)) p mn mx step) (hy : ∀ s ∈ scans, ∀ q ∈ pts s, 0 ≤ q.y) :
    combine1D scans' x y normTo grid tol = combine1D scans x y normTo grid tol := by
  have hne' : scans' ≠ [] := fun h => hne (by rw [h] at hperm; exact hperm.eq_nil)
  rw [combine1D_measured hne hm hp hc ht hf,
    combine1D_measured hne' (fun s hs => hm s (hperm.mem_iff.2 hs)) (fun s hs => hp s (hperm.mem_iff.2 hs)) hc ht hf]
  have hq : ∀ q ∈ scans.flatMap pts, 0 ≤ q.y := by
    intro q hq
    obtain ⟨s, hs, h⟩ := List.mem_flatMap.1 hq
    exact hy s hs q h
  have hpp : (scans.flatMap pts).Perm (scans'.flatMap pts) := hperm.flatMap_right pts
  cases (chooseRebin grid tol).1 <;> cases normTo
  · exact (C35_permutation (v := 0) hr hq hpp).2.2.1
  · exact (C35_permutation hr hq hpp).2.2.2
  · exact (C35_permutation (v := 0) hr hq hpp).1
  · exact (C35_permutation hr hq hpp).2.1

theorem map2D_perm {pts pts' : List Spec.Pt2} {px py : RebinParams} {a b : Spec.Axis} {v : ℝ}
    (ha : a.For (pts.map (·.x)) px) (hb : b.For (pts.map (·.y)) py) (hz : ∀ p ∈ pts, 0 ≤ p.z) (h : pts.Perm pts') :
    (Spec.map2D pts' none).rebinGrid px py = (Spec.map2D pts none).rebinGrid px py ∧
    (Spec.map2D pts' none).rebinGridRenorm px py (some (pts'.map fun p => some p.n)) v =
      (Spec.map2D pts none).rebinGridRenorm px py (some (pts.map fun p => some p.n)) v := by
  have ha' : a.For (pts'.map (·.x)) px := by
    obtain ⟨m, h1, h2⟩ := ha; exact ⟨m, range_perm (h.map _) h1, h2⟩
  have hb' : b.For (pts'.map (·.y)) py := by
    obtain ⟨m, h1, h2⟩ := hb; exact ⟨m, range_perm (h.map _) h1, h2⟩
  have hz' : ∀ p ∈ pts', 0 ≤ p.z := fun p hp => hz p (h.mem_iff.2 hp)
  have hc : ∀ i j, (Spec.cell a b pts i j).Perm (Spec.cell a b pts' i j) := fun i j => h.filter _
  have hs : ∀ f i j, Spec.cellSum a b pts' f i j = Spec.cellSum a b pts f i j := fun f i j =>
    (((hc i j).map f).sum_eq).symm
  have hnum : ∀ i j, Spec.cellNumber a b pts' i j = Spec.cellNumber a b pts i j := fun i j => by
    unfold Spec.cellNumber; rw [(hc i j).length_eq]
  have c1 := C36_cells (norm := none) (col := some (pts.map fun p => some p.n)) (v := v) ha hb hz
  have c2 := C36_cells (norm := none) (col := some (pts'.map fun p => some p.n)) (v := v) ha' hb' hz'
  constructor
  · rw [c1.1, c2.1]; simp only [hs, hnum]
  · rw [c1.2 (Or.inl rfl), c2.2 (Or.inl rfl)]; simp only [hs]

/-- The columns used by a 2D request are those of the points. -/
def Spec.Measured2 (s : Scan) (x y z ch : Str) (pts : List Spec.Pt2) : Prop :=
  s.col x = .ok (pts.map fun p => some p.x) ∧ s.col y = .ok (pts.map fun p => some p.y) ∧
    s.col z = .ok (pts.map fun p => some p.z) ∧ s.col ch = .ok (pts.map fun p => some p.n)

theorem fillSlice_ok {n : ℕ} {c : List Num} (h : c.length = n) : fillSlice n c = .ok c := by
  unfold fillSlice; rw [if_pos h]

theorem flatCols_ok {scans : List Scan} {pts : Scan → List Spec.Pt2} {x y z ch : Str}
    (hm : ∀ s ∈ scans, Spec.Measured2 s x y z ch (pts s)) :
    flatCols scans x y z = .ok ((scans.flatMap pts).map (fun p => some p.x), (scans.flatMap pts).map (fun p => some p.y),
      (scans.flatMap pts).map (fun p => some p.z)) := by
  unfold flatCols
  rw [groupCol_ok fun s hs => (hm s hs).1, py_bind_ok, mapM_ok (g := fun s => ((pts s).map fun p => some p.x, (pts s).map fun p => some p.y, (pts s).map fun p => some p.z))]
  · simp only [py_bind_ok, List.map_map, List.map_flatMap]; rfl
  · intro s hs
    obtain ⟨h1, h2, h3, _⟩ := hm s hs
    rw [h1, h2, h3]
    simp only [py_bind_ok]
    rw [fillSlice_ok (by simp), fillSlice_ok (by simp)]
    rfl

theorem map2D_init (pts : List Spec.Pt2) (norm : Option (List Num)) :
    ScanData2D.init (pts.map fun p => some p.x) (pts.map fun p => some p.y) (pts.map fun p => some p.z) norm =
      Spec.map2D pts norm := by
  unfold ScanData2D.init Spec.map2D
  congr 1
  rw [List.map_map]; rfl

theorem combine2D_measured {scans : List Scan} (hne : scans ≠ []) {pts : Scan → List Spec.Pt2} {x y z ch0 : Str} {v0 : ℝ}
    {normTo : Option (ℝ × Str)} (hm : ∀ s ∈ scans, Spec.Measured2 s x y z (Spec.channel normTo ch0) (pts s))
    (hp : ∀ s ∈ scans, s.preset = .normal ch0 v0) {a b : RebinArg} {pa pb : RebinParams}
    (hfa : formatRebin a = .ok pa) (hfb : formatRebin b = .ok pb) :
    combine2D scans x y z normTo (some (.pair a b)) =
      match normTo with
      | none => (Spec.map2D (scans.flatMap pts) none).rebinGrid pa pb
      | some n => (Spec.map2D (scans.flatMap pts) none).rebinGridRenorm pa pb
          (some ((scans.flatMap pts).map fun p => some p.n)) n.1 := by
  have hn := groupCol_ok fun s hs => (hm s hs).2.2.2
  rw [← List.map_flatMap] at hn
  unfold combine2D combine2DRebin
  simp only
  rw [flatCols_ok hm, hfa, hfb]
  simp only [py_bind_ok, map2D_init]
  cases normTo with
  | none => simp only [defaultRenorm_ok hne hp, py_bind_ok]
  | some n => 
    simp only [Spec.channel, Option.map_some, Option.getD_some] at hn
    simp only [hn, py_bind_ok]

/-- **C35** The order of the scans does not matter for a rebinned 2D map. -/
theorem C35_scan_order_2d {scans scans' : List Scan} (hperm : scans.Perm scans') (hne : scans ≠ [])
    {pts : Scan → List Spec.Pt2} {x y z ch0 : Str} {v0 : ℝ} {normTo : Option (ℝ × Str)}
    (hm : ∀ s ∈ scans, Spec.Measured2 s x y z (Spec.channel normTo ch0) (pts s))
    (hp : ∀ s ∈ scans, s.preset = .normal ch0 v0) {a b : RebinArg} {pa pb : RebinParams}
    (hfa : formatRebin a = .ok pa) (hfb : formatRebin b = .ok pb) {ax bx : Spec.Axis}
    (ha : ax.For ((scans.flatMap pts).map (·.x)) pa) (hb : bx.For ((scans.flatMap pts).map (·.y)) pb)
    (hz : ∀ s ∈ scans, ∀ q ∈ pts s, 0 ≤ q.z) :
    combine2D scans' x y z normTo (some (.pair a b)) = combine2D scans x y z normTo (some (.pair a b)) := by
  have hne' : scans' ≠ [] := fun h => hne (by rw [h] at hperm; exact hperm.eq_nil)
  rw [combine2D_measured hne hm hp hfa hfb,
    combine2D_measured hne' (fun s hs => hm s (hperm.mem_iff.2 hs)) (fun s hs => hp s (hperm.mem_iff.2 hs)) hfa hfb]
  have hq : ∀ q ∈ scans.flatMap pts, 0 ≤ q.z := by
    intro q hq
    obtain ⟨s, hs, h⟩ := List.mem_flatMap.1 hq
    exact hz s hs q h
  have hpp : (scans.flatMap pts).Perm (scans'.flatMap pts) := hperm.flatMap_right pts
  cases normTo with
  | none => exact (map2D_perm (v := 0) ha hb hq hpp).1
  | some n => exact (map2D_perm ha hb hq hpp).2

/-! ## C38: subtraction -/

/-- **C38** Data sets of equal length: pointwise difference, errors in quadrature, same positions, operands unchanged. -/
theorem C38_equal_length_partial {n : ℕ} {x y e x' y' e' : Fin n → ℝ} {nm nm' : Option (List Num)} :
    let self : ScanData1D := ⟨List.ofFn fun i => some (x i), List.ofFn fun i => some (y i), List.ofFn fun i => some (e i), nm⟩
    let other : ScanData1D :=
      ⟨List.ofFn fun i => some (x' i), List.ofFn fun i => some (y' i), List.ofFn fun i => some (e' i), nm'⟩
    (∃ r, (self.sub other).result = .ok r ∧ r.x = self.x ∧ r.y = List.ofFn (fun i => some (y i - y' i)) ∧
      r.err = List.ofFn (fun i => some √(e i ^ 2 + e' i ^ 2))) ∧ (self.sub other).self = self ∧ (self.sub other).other = other := by
  intro self other
  have hl : ¬ self.x.length ≠ other.x.length := by simp [self, other]
  have zipOf : ∀ (f : Num → Num → Num) (g h : Fin n → Num),
      zipN f (List.ofFn g) (List.ofFn h) = .ok (List.ofFn fun i => f (g i) (h i)) := by
    intro f g h
    unfold zipN
    rw [if_pos (by simp)]
    congr 1
    apply List.ext_getElem <;> simp
  unfold ScanData1D.sub
  rw [if_neg hl]
  refine ⟨?_, rfl, rfl⟩
  refine ⟨{ ScanData1D.init self.x (List.ofFn fun i => nsub (some (y i)) (some (y' i))) with
    err := (List.ofFn fun i => nadd (nmul (some (e i)) (some (e i))) (nmul (some (e' i)) (some (e' i)))).map nsqrt },
    by simp only [self, other, List.map_ofFn, zipOf, py_bind_ok]; rfl, rfl, rfl, ?_⟩
  simp only [List.map_ofFn]
  congr 1
  funext i
  simp only [Function.comp, nmul, nadd, nsqrt]
  rw [if_neg (by nlinarith [mul_self_nonneg (e i), mul_self_nonneg (e' i)])]
  congr 2
  ring

/-- **C38 (negation)** Data sets of different length cannot be subtracted: with a point inside the range of the first one the
code looks for an attribute that does not exist. -/
theorem C38_different_length_fails (self other : ScanData1D) (hl : self.x.length ≠ other.x.length)
    (h2 : 2 ≤ self.x.length) :
    let iv := List.zipWith nsub self.x.tail self.x
    let xmin := nsub (self.x.head?.join) (ndiv iv.head?.join (some 2))
    let xmax := nadd (self.x.getLast?.join) (ndiv iv.getLast?.join (some 2))
    (∃ x0 ∈ other.x, outside xmin xmax x0 = false) → (self.sub other).result = .error .attributeError := by
  intro iv xmin xmax h
  unfold ScanData1D.sub
  rw [if_pos hl, if_neg (by omega)]
  have : (other.x.any fun x0 => !(outside xmin xmax x0)) = true := by
    obtain ⟨x0, hx, ho⟩ := h
    exact List.any_eq_true.2 ⟨x0, hx, by simp [ho]⟩
  dsimp only
  rw [if_pos this]

/-- **C38 (negation)** When no point is in range, the second operand is overwritten. -/
theorem C38_operand_destroyed :
    let self : ScanData1D := ScanData1D.init [some 0, some 1] [some 5, some 6]
    let other : ScanData1D := ScanData1D.init [some 10] [some 4]
    (self.sub other).other.y = [none, none] ∧ other.y = [some 4] := by
  intro self other
  refine ⟨?_, rfl⟩
  unfold ScanData1D.sub
  rw [if_pos (by simp [self, other, ScanData1D.init]), if_neg (by simp [self, ScanData1D.init])]
  dsimp only
  rw [if_neg]
  · rfl
  · simp [self, other, ScanData1D.init, outside, nsub, nadd, ndiv]
    norm_num

/-! ## C39: rebin parameters -/

/-- The request means the triple `(min, max, step)`. -/
inductive Spec.Means : RebinArg → Option ℝ → Option ℝ → Option ℝ → Prop
  | step (s : ℝ) : Spec.Means (.num s) none none (some s)
  | pair (a b : Option ℝ) : Spec.Means (.tup2 a b) a b none
  | triple (a b c : Option ℝ) : Spec.Means (.tup3 a b c) a b c

theorem checkRebin_iff (p q : RebinParams) :
    checkRebin p = .ok q ↔ q = p ∧ (∀ a ∈ p.min, ∀ b ∈ p.max, a < b) ∧ ∀ s ∈ p.step, 0 ≤ s := by
  obtain ⟨mn, mx, st⟩ := p
  unfold checkRebin
  rcases mn with _ | a <;> rcases mx with _ | b <;> rcases st with _ | s <;>
    simp only [if_false, Option.mem_def, reduceCtorEq, IsEmpty.forall_iff, implies_true, true_and, and_true, Option.some.injEq,
      forall_eq', Except.ok.injEq] <;> (try split_ifs) <;> simp_all [eq_comm]

/-- **C39** A step, a pair or a triple is accepted exactly when the limits (if both given) are in order and the step (if
given) is not negative, and then means the corresponding triple; everything else is a `ValueError`. -/
theorem C39_accepted_iff (a : RebinArg) (p : RebinParams) :
    formatRebin a = .ok p ↔ Spec.Means a p.min p.max p.step ∧ (∀ lo ∈ p.min, ∀ hi ∈ p.max, lo < hi) ∧ ∀ s ∈ p.step, 0 ≤ s := by
  cases a <;> simp only [formatRebin]
  · rw [checkRebin_iff]
    constructor
    · rintro ⟨rfl, h⟩; exact ⟨.step _, h⟩
    · rintro ⟨h, h'⟩; obtain ⟨mn, mx, st⟩ := p; cases h; exact ⟨rfl, h'⟩
  · rw [checkRebin_iff]
    constructor
    · rintro ⟨rfl, h⟩; exact ⟨.pair _ _, h⟩
    · rintro ⟨h, h'⟩; obtain ⟨mn, mx, st⟩ := p; cases h; exact ⟨rfl, h'⟩
  · rw [checkRebin_iff]
    constructor
    · rintro ⟨rfl, h⟩; exact ⟨.triple _ _ _, h⟩
    · rintro ⟨h, h'⟩; obtain ⟨mn, mx, st⟩ := p; cases h; exact ⟨rfl, h'⟩
  · simp only [reduceCtorEq, false_iff]; rintro ⟨h, _⟩; cases h
  · simp only [reduceCtorEq, false_iff]; rintro ⟨h, _⟩; cases h

theorem checkRebin_error (p : RebinParams) {e : PyErr} (h : checkRebin p = .error e) : e = .valueError := by
  unfold checkRebin at h
  dsimp only at h
  split_ifs at h <;> cases h <;> rfl

/-- **C39** Whatever is not accepted is refused with a `ValueError`. -/
theorem C39_refusal (a : RebinArg) {e : PyErr} (h : formatRebin a = .error e) : e = .valueError := by
  cases a <;> simp only [formatRebin] at h
  · exact checkRebin_error _ h
  · exact checkRebin_error _ h
  · exact checkRebin_error _ h
  · cases h; rfl
  · cases h; rfl

/-- **C39** Normalising twice changes nothing. -/
theorem C39_idempotent {a : RebinArg} {p : RebinParams} (h : formatRebin a = .ok p) :
    formatRebin (.tup3 p.min p.max p.step) = .ok p := by
  rw [C39_accepted_iff] at h ⊢
  exact ⟨.triple _ _ _, h.2⟩

/-- **C39** When both kinds of rebinning are requested the tolerance request has no effect. -/
theorem C39_grid_wins (s : Scan) (scans : List Scan) (x y : Option Str) (x' y' : Str) (n : Option (ℝ × Str)) (g : RebinArg)
    (t : Option RebinArg) :
    s.getData x y n (some g) t = s.getData x y n (some g) none ∧
    combine1D scans x' y' n (some g) t = combine1D scans x' y' n (some g) none := ⟨rfl, rfl⟩

/-- **C39** An accepted request with a positive step can be carried out on every data set for which it leaves a range: always
when both limits were given, and on every non-empty data set when only a step was given. -/
theorem C39_can_be_done_partial {a : RebinArg} {p : RebinParams} (h : formatRebin a = .ok p) {s : ℝ} (hs : p.step = some s)
    (hpos : 0 < s) {pts : List Spec.Pt} (hy : ∀ q ∈ pts, 0 ≤ q.y) :
    (p.min.isSome ∧ p.max.isSome) ∨ (pts ≠ [] ∧ p.min = none ∧ p.max = none) →
    (∃ r, (Spec.curve pts none).rebinGrid p = .ok r) ∧ (∃ r, (Spec.curve pts none).rebinTol p (some (Spec.monitors pts)) = .ok r) := by
  intro hc
  have hr : ∃ mn mx, Spec.Range (pts.map (·.x)) p mn mx s := by
    rw [C39_accepted_iff] at h
    rcases hc with ⟨h1, h2⟩ | ⟨hne, h1, h2⟩
    · obtain ⟨lo, h1⟩ := Option.isSome_iff_exists.1 h1
      obtain ⟨hi, h2⟩ := Option.isSome_iff_exists.1 h2
      exact ⟨lo, hi, Or.inl h1, Or.inl h2, hs, hpos, (h.2.1 lo h1 hi h2).le⟩
    · obtain ⟨q, l, rfl⟩ := List.exists_cons_of_ne_nil hne
      obtain ⟨i1, i2⟩ := foldl_min_spec (l.map (·.x)) q.x
      obtain ⟨j1, j2⟩ := foldl_max_spec (l.map (·.x)) q.x
      exact ⟨_, _, Or.inr ⟨h1, i1, i2⟩, Or.inr ⟨h2, j1, j2⟩, hs, hpos, j2 _ i1⟩
  obtain ⟨mn, mx, hr⟩ := hr
  obtain ⟨N, hN, _⟩ := binCount_exists (mn := mn) (mx := mx) hpos
  exact ⟨⟨_, C30_grid hr hN hy⟩, ⟨_, C30_tol hr hN hy (Or.inl rfl)⟩⟩

/-- **C39 (negation)** Accepted, but impossible for every data set: a pair (no step), and a triple with step zero. -/
theorem C39_accepted_impossible (d : ScanData1D) :
    (formatRebin (.tup2 (some 0) (some 1)) = .ok ⟨some 0, some 1, none⟩ ∧
      d.rebinGrid ⟨some 0, some 1, none⟩ = .error .typeError) ∧
    (formatRebin (.tup3 (some 0) (some 1) (some 0)) = .ok ⟨some 0, some 1, some 0⟩ ∧
      d.rebinGrid ⟨some 0, some 1, some 0⟩ = .error .zeroDivision) := by
  refine ⟨⟨?_, rfl⟩, ⟨?_, ?_⟩⟩
  · rw [C39_accepted_iff]; exact ⟨.pair _ _, by simp, by simp⟩
  · rw [C39_accepted_iff]; exact ⟨.triple _ _ _, by simp, by simp⟩
  · unfold ScanData1D.rebinGrid binRange pickLimit
    simp

end Tavi
