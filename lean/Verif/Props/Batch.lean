import Verif.Props.Frame
import Verif.Props.Group

/-! # C28 (batches) and C29 (grids) -/

namespace Tavi

open Matrix Spec

/-! ## C28 -/

/-- Specification: what one position contributes to the list of results. -/
noncomputable def Spec.resultOf (r : Py Ellipsoid) : Option Reso :=
  match r with
  | .ok e => some (.finite e)
  | .error .nonFinite => some .nonFinite
  | .error _ => none

/-- Specification: the message a position leaves, if any. -/
noncomputable def Spec.messageOf (r : Py Ellipsoid) : Option PyErr :=
  match r with
  | .ok _ => none
  | .error .nonFinite => none
  | .error e => some e

/-- Specification: the failures that are reported and not raised. -/
def Spec.Tolerated (r : Py Ellipsoid) : Prop :=
  ∀ e, r = .error e → e = .valueError ∨ e = .linAlgError ∨ e = .nonFinite

theorem resoStep_ok {α : Type} {f : α → Py Ellipsoid} {p : α} (h : Spec.Tolerated (f p)) (acc : List (Option Reso) × List PyErr) :
    resoStep f acc p = .ok (acc.1 ++ [Spec.resultOf (f p)], acc.2 ++ (Spec.messageOf (f p)).toList) := by
  unfold resoStep
  cases hf : f p with
  | ok e => simp [Spec.resultOf, Spec.messageOf]
  | error e =>
    rcases h e hf with rfl | rfl | rfl <;> simp [Spec.resultOf, Spec.messageOf, caught]

theorem resoStep_err {α : Type} {f : α → Py Ellipsoid} {p : α} {acc : List (Option Reso) × List PyErr} {r}
    (h : resoStep f acc p = .ok r) : Spec.Tolerated (f p) := by
  intro e he
  unfold resoStep at h
  rw [he] at h
  dsimp only at h
  unfold caught at h
  cases e <;> simp at h ⊢

theorem resoFold_ok {α : Type} {f : α → Py Ellipsoid} (l : List α) (h : ∀ p ∈ l, Spec.Tolerated (f p)) :
    ∀ acc : List (Option Reso) × List PyErr, l.foldlM (resoStep f) acc =
      .ok (acc.1 ++ l.map fun p => Spec.resultOf (f p), acc.2 ++ l.filterMap fun p => Spec.messageOf (f p)) := by
  induction l with
  | nil => intro acc; simp [py_pure]
  | cons a l ih =>
    intro acc
    rw [List.foldlM_cons, resoStep_ok (h a (by simp)), py_bind_ok, ih fun p hp => h p (by simp [hp])]
    cases hm : Spec.messageOf (f a) <;> simp [hm]

theorem resoFold_err {α : Type} {f : α → Py Ellipsoid} (l : List α) :
    ∀ {acc : List (Option Reso) × List PyErr} {r}, l.foldlM (resoStep f) acc = .ok r → ∀ p ∈ l, Spec.Tolerated (f p) := by
  induction l with
  | nil => intro acc r _ p hp; cases hp
  | cons a l ih =>
    intro acc r h p hp
    rw [List.foldlM_cons] at h
    obtain ⟨b, hb, h⟩ := py_bind_eq_ok.1 h
    rcases List.mem_cons.1 hp with rfl | hp
    · exact resoStep_err hb
    · exact ih h p hp

/-- Specification: the instrument can be described: senses are given, no mosaic or collimation is missing or negative, and the
sample has an orientation from which the plane vectors follow. -/
def Spec.Accepted (t : Tas) : Prop := t.validateReso = .ok () ∧ t.describe = .ok ()

/-- **C28** A batch that returns has exactly one result per position, in order: the result at a position is the one computed for that
position alone; positions that fail have `None` and leave exactly one message, in order; one position yields the bare
result. -/
theorem C28_batch {t : Tas} {hkle : HkleArg} {axes : Option (List AxisItem)} {out : ResoOut} {msgs : List PyErr}
    (h : t.cooperNathans hkle axes = .ok (out, msgs)) :
    ∃ ps : List (V3 × ℝ × ℝ), ps.length = hkle.toList.length ∧
      (∀ (i : ℕ) (p : V3 × ℝ) (q : V3 × ℝ × ℝ), hkle.toList[i]? = some p → ps[i]? = some q → q.1 = p.1 ∧ t.getEiEf none none p.2 = .ok q.2) ∧
      (∀ q ∈ ps, Spec.Tolerated (t.resoAt axes q)) ∧
      msgs = ps.filterMap (fun q => Spec.messageOf (t.resoAt axes q)) ∧
      ((∃ q, ps = [q] ∧ out = .bare (Spec.resultOf (t.resoAt axes q))) ∨
       (ps.length ≠ 1 ∧ out = .tuple (ps.map fun q => Spec.resultOf (t.resoAt axes q)))) := by
  unfold Tas.cooperNathans at h
  obtain ⟨_, -, h⟩ := py_bind_eq_ok.1 h
  obtain ⟨_, -, h⟩ := py_bind_eq_ok.1 h
  obtain ⟨ps, hps, h⟩ := py_bind_eq_ok.1 h
  obtain ⟨⟨rez, msg⟩, hr, h⟩ := py_bind_eq_ok.1 h
  have h := Except.ok.inj h
  have htol := resoFold_err ps hr
  rw [resoFold_ok ps htol] at hr
  have hr := Except.ok.inj hr
  simp only [List.nil_append, Prod.mk.injEq] at hr h
  obtain ⟨rfl, rfl⟩ := hr
  obtain ⟨rfl, rfl⟩ := h
  unfold Tas.hkleiefList at hps
  have hf := mapM_ok_inv hps
  refine ⟨ps, hf.length_eq.symm, ?_, htol, rfl, ?_⟩
  · intro i p q hp hq
    have := List.forall₂_iff_get.1 hf
    obtain ⟨hi, hp⟩ := List.getElem?_eq_some_iff.1 hp
    obtain ⟨hj, hq⟩ := List.getElem?_eq_some_iff.1 hq
    have h1 := this.2 i hi hj
    simp only [List.get_eq_getElem] at h1
    rw [hp, hq] at h1
    obtain ⟨e, he, h1⟩ := py_bind_eq_ok.1 h1
    have h1 := Except.ok.inj h1
    rw [← h1]
    exact ⟨rfl, he⟩
  · match ps with
    | [] => right; simp [packReso]
    | [q] => left; exact ⟨q, rfl, rfl⟩
    | a :: b :: l => right; simp [packReso]

/-- **C28** Conversely, when the instrument is accepted, the energies are known for every position, and the positions only fail in
the tolerated ways, the batch returns: no pattern of failures prevents the other results. -/
theorem C28_returns {t : Tas} {hkle : HkleArg} {axes : Option (List AxisItem)} (ht : Spec.Accepted t)
    {ps : List (V3 × ℝ × ℝ)} (hps : t.hkleiefList hkle.toList = .ok ps) (htol : ∀ q ∈ ps, Spec.Tolerated (t.resoAt axes q)) :
    ∃ out msgs, t.cooperNathans hkle axes = .ok (out, msgs) := by
  unfold Tas.cooperNathans
  rw [ht.1, py_bind_ok, ht.2, py_bind_ok, hps, py_bind_ok, resoFold_ok ps htol]
  exact ⟨_, _, rfl⟩

/-- **C28** An instrument without fixed energy, or with unusable parameters, refuses the whole batch. -/
theorem C28_refuses {t : Tas} {hkle : HkleArg} {axes : Option (List AxisItem)} :
    (∀ e, t.validateReso = .error e → t.cooperNathans hkle axes = .error e) ∧
    (Spec.Accepted t → t.fixedEi = none → t.fixedEf = none → hkle.toList ≠ [] →
      t.cooperNathans hkle axes = .error .valueError) := by
  constructor
  · intro e he
    unfold Tas.cooperNathans; rw [he]; rfl
  · intro ht h1 h2 hne
    unfold Tas.cooperNathans
    rw [ht.1, py_bind_ok, ht.2, py_bind_ok]
    have : t.hkleiefList hkle.toList = .error .valueError := by
      unfold Tas.hkleiefList
      match hl : hkle.toList with
      | [] => exact absurd hl hne
      | p :: l =>
        rw [List.mapM_cons]
        have : t.getEiEf none none p.2 = .error .valueError := by unfold Tas.getEiEf; simp [h1, h2]
        rw [this]; rfl
    rw [this]; rfl

/-! ## C29 -/

/-- **C29** The values of one grid entry: a number gives itself; `(lo, hi, step)` gives `lo, lo + step, ...` as long as `hi` is
not reached, and nothing else is accepted. -/
theorem C29_values :
    (∀ x, gridVals (.scalar x) = .ok [x]) ∧
    (∀ lo hi step : ℝ, step ≠ 0 → ∃ v : List ℝ, gridVals (.tup [lo, hi, step]) = .ok v ∧
      (∀ (i : ℕ) (x : ℝ), v[i]? = some x → x = lo + i * step) ∧
      (0 < step → ∀ i : ℕ, i < v.length ↔ lo + i * step < hi) ∧ (step < 0 → ∀ i : ℕ, i < v.length ↔ hi < lo + i * step)) ∧
    (∀ lo hi, gridVals (.tup [lo, hi, 0]) = .error .zeroDivision) ∧
    (∀ l : List ℝ, l.length ≠ 3 → gridVals (.tup l) = .error .valueError) ∧ gridVals .other = .error .valueError := by
  refine ⟨fun x => rfl, fun lo hi step hs => ?_, fun lo hi => ?_, fun l hl => ?_, rfl⟩
  · refine ⟨_, by dsimp only [gridVals, arange]; rw [if_neg hs], ?_, ?_, ?_⟩
    · intro i x hx
      rw [List.getElem?_map] at hx
      rcases hr : (List.range ⌈(hi - lo) / step⌉.toNat)[i]? with _ | j
      · rw [hr] at hx; cases hx
      · rw [hr] at hx
        have := List.getElem?_eq_some_iff.1 hr
        obtain ⟨h1, h2⟩ := this
        rw [List.getElem_range] at h2
        simp at hx
        rw [← hx, h2]
    · intro hp i
      rw [List.length_map, List.length_range, Int.lt_toNat, Int.lt_ceil, lt_div_iff₀ hp]
      simp only [Int.cast_natCast]
      constructor <;> intro h <;> linarith
    · intro hn i
      rw [List.length_map, List.length_range, Int.lt_toNat, Int.lt_ceil, lt_div_iff_of_neg hn]
      simp only [Int.cast_natCast]
      constructor <;> intro h <;> linarith
  · unfold gridVals arange; simp
  · unfold gridVals
    split
    · rename_i h; cases h
    · rename_i a b c h; injection h with h; rw [h] at hl; simp at hl
    · rfl
    · rfl

/-- **C29** Malformed grids are refused. -/
theorem C29_refused (grid : List GridItem) (axes : List AxisItem) :
    (grid.length ≠ 4 ∨ axes.length ≠ 4 ∨ AxisItem.name "en".toList ∉ axes → generateHkle grid axes = .error .valueError) ∧
    (∀ (i : ℕ) (a : AxisItem) (g : GridItem), axes[i]? = some a → grid[i]? = some g → gridVals g = .error .valueError →
      (∀ j < i, ∀ g : GridItem, grid[j]? = some g → ∃ v, gridVals g = .ok v) → generateHkle grid axes = .error .valueError) := by
  have hany : axes.any isEn = true ↔ AxisItem.name "en".toList ∈ axes := by
    rw [List.any_eq_true]
    constructor
    · rintro ⟨a, ha, h⟩
      cases a with
      | vec v => simp [isEn] at h
      | name s =>
        simp only [isEn, decide_eq_true_eq] at h
        rwa [h] at ha
    · intro h; exact ⟨_, h, by simp [isEn]⟩
  have first : grid.length ≠ 4 ∨ axes.length ≠ 4 ∨ AxisItem.name "en".toList ∉ axes →
      generateHkle grid axes = .error .valueError := by
    intro h
    unfold generateHkle
    split
    · rfl
    split
    · rfl
    rename_i h1 h2
    exfalso
    rw [not_or] at h2
    rcases h with h | h | h
    · exact h1 h
    · exact h2.1 h
    · apply h2.2
      rw [← Bool.not_eq_true, hany]; exact h
  refine ⟨first, ?_⟩
  intro i a g ha hg hbad hprev
  by_cases hm : grid.length ≠ 4 ∨ axes.length ≠ 4 ∨ AxisItem.name "en".toList ∉ axes
  · exact first hm
  push Not at hm
  unfold generateHkle
  rw [if_neg (by simp [hm.1]), if_neg (by rw [not_or]; exact ⟨by simp [hm.2.1], by rw [hany.2 hm.2.2]; simp⟩)]
  have fold : ∀ (ax : List AxisItem) (gr : List GridItem) (i : ℕ) (acc : List (List ℝ) × Option (List ℝ)),
      ax[i]? = some a → gr[i]? = some g → (∀ j < i, ∀ g : GridItem, gr[j]? = some g → ∃ v, gridVals g = .ok v) →
      (ax.zip gr).foldlM gridStep acc = .error .valueError := by
    intro ax
    induction ax with
    | nil => intro gr i acc h; simp at h
    | cons x ax ih =>
      intro gr i acc h1 h2 h3
      cases gr with
      | nil => simp at h2
      | cons y gr =>
        rw [List.zip_cons_cons, List.foldlM_cons]
        cases i with
        | zero =>
          simp at h2
          unfold gridStep
          rw [h2, hbad]; rfl
        | succ i =>
          obtain ⟨v, hv⟩ := h3 0 (by omega) y (by simp)
          have : ∃ acc', gridStep acc (x, y) = .ok acc' := by
            unfold gridStep; rw [hv]; exact ⟨_, rfl⟩
          obtain ⟨acc', hacc⟩ := this
          rw [hacc, py_bind_ok]
          exact ih gr i acc' (by simpa using h1) (by simpa using h2) fun j hj g' hg' => h3 (j + 1) (by omega) g' (by simpa using hg')
  rw [fold axes grid i _ ha hg hprev]
  rfl

theorem flatMap_get {α β : Type} {l : List α} {f : α → List β} {n : ℕ} (hn : ∀ a ∈ l, (f a).length = n) {i j : ℕ} {a : α}
    (hi : l[i]? = some a) (hj : j < n) : (l.flatMap f)[i * n + j]? = (f a)[j]? := by
  induction l generalizing i with
  | nil => simp at hi
  | cons x l ih =>
    rw [List.flatMap_cons]
    have hx := hn x (by simp)
    cases i with
    | zero =>
      simp at hi
      subst hi
      rw [Nat.zero_mul, Nat.zero_add, List.getElem?_append_left (by omega)]
    | succ i =>
      rw [List.getElem?_append_right (by rw [hx, Nat.succ_mul]; omega), hx,
        show (i + 1) * n + j - n = i * n + j by rw [Nat.succ_mul]; omega]
      exact ih (fun b hb => hn b (by simp [hb])) (by simpa using hi)

theorem flatMap_len {α β : Type} {l : List α} {f : α → List β} {n : ℕ} (hn : ∀ a ∈ l, (f a).length = n) :
    (l.flatMap f).length = l.length * n := by
  induction l with
  | nil => simp
  | cons x l ih =>
    rw [List.flatMap_cons, List.length_append, hn x (by simp), ih fun b hb => hn b (by simp [hb]), List.length_cons, Nat.succ_mul]
    omega

theorem product_get (us vs ws es : List ℝ) (F : ℝ → ℝ → ℝ → ℝ → V3 × ℝ) :
    (us.flatMap fun u => vs.flatMap fun v => ws.flatMap fun w => es.map fun e => F u v w e).length
      = us.length * vs.length * ws.length * es.length ∧
    ∀ (i j k m : ℕ) (u v w e : ℝ), us[i]? = some u → vs[j]? = some v → ws[k]? = some w → es[m]? = some e →
      (us.flatMap fun u => vs.flatMap fun v => ws.flatMap fun w => es.map fun e => F u v w e)[
        ((i * vs.length + j) * ws.length + k) * es.length + m]? = some (F u v w e) := by
  have l1 : ∀ u v w, (es.map fun e => F u v w e).length = es.length := fun u v w => by simp
  have l2 : ∀ u v, (ws.flatMap fun w => es.map fun e => F u v w e).length = ws.length * es.length := fun u v =>
    flatMap_len fun w _ => l1 u v w
  have l3 : ∀ u, (vs.flatMap fun v => ws.flatMap fun w => es.map fun e => F u v w e).length
      = vs.length * (ws.length * es.length) := fun u => flatMap_len fun v _ => l2 u v
  have l4 := flatMap_len (l := us) (f := fun u => vs.flatMap fun v => ws.flatMap fun w => es.map fun e => F u v w e)
    fun u _ => l3 u
  refine ⟨by rw [l4]; ring, ?_⟩
  intro i j k m u v w e hu hv hw he
  have bj : j < vs.length := (List.getElem?_eq_some_iff.1 hv).1
  have bk : k < ws.length := (List.getElem?_eq_some_iff.1 hw).1
  have bm : m < es.length := (List.getElem?_eq_some_iff.1 he).1
  have b1 : k * es.length + m < ws.length * es.length := by
    calc k * es.length + m < k * es.length + es.length := by omega
      _ = (k + 1) * es.length := by ring
      _ ≤ ws.length * es.length := Nat.mul_le_mul_right _ bk
  have b2 : j * (ws.length * es.length) + (k * es.length + m) < vs.length * (ws.length * es.length) := by
    calc j * (ws.length * es.length) + (k * es.length + m) < j * (ws.length * es.length) + ws.length * es.length := by omega
      _ = (j + 1) * (ws.length * es.length) := by ring
      _ ≤ vs.length * (ws.length * es.length) := Nat.mul_le_mul_right _ bj
  rw [show ((i * vs.length + j) * ws.length + k) * es.length + m
      = i * (vs.length * (ws.length * es.length)) + (j * (ws.length * es.length) + (k * es.length + m)) by ring,
    flatMap_get (fun u _ => l3 u) hu b2, flatMap_get (fun v _ => l2 u v) hv b1, flatMap_get (fun w _ => l1 u v w) hw bm,
    List.getElem?_map, he]
  rfl

/-- **C29** With one energy axis among four, wherever it is placed, and three vector axes, the list is the full Cartesian product: its
length is the product of the numbers of values, and the point with the `idx i`-th value on each axis `i` is found exactly
at the row-major position (first vector axis slowest, energy fastest), with `hkl` and energy as given by the axes. -/
theorem C29_product {ax : Fin 4 → AxisItem} {p1 p2 p3 : V3} {n : Fin 4}
    (hax : (n = 0 ∧ ax = ![.name "en".toList, .vec p1, .vec p2, .vec p3]) ∨
      (n = 1 ∧ ax = ![.vec p1, .name "en".toList, .vec p2, .vec p3]) ∨
      (n = 2 ∧ ax = ![.vec p1, .vec p2, .name "en".toList, .vec p3]) ∨
      (n = 3 ∧ ax = ![.vec p1, .vec p2, .vec p3, .name "en".toList]))
    {g : Fin 4 → GridItem} {vals : Fin 4 → List ℝ} (hg : ∀ i, gridVals (g i) = .ok (vals i)) :
    ∃ L, generateHkle (List.ofFn g) (List.ofFn ax) = .ok L ∧ L.length = ∏ i, (vals i).length ∧
      ∀ (idx : Fin 4 → ℕ) (x : Fin 4 → ℝ), (∀ i, (vals i)[idx i]? = some (x i)) →
        L[((idx (n.succAbove 0) * (vals (n.succAbove 1)).length + idx (n.succAbove 1)) * (vals (n.succAbove 2)).length
          + idx (n.succAbove 2)) * (vals n).length + idx n]? = some (hklOf ax x, enOf ax x) := by
  have h0 := hg 0
  have h1 := hg 1
  have h2 := hg 2
  have h3 := hg 3
  rcases hax with ⟨rfl, rfl⟩ | ⟨rfl, rfl⟩ | ⟨rfl, rfl⟩ | ⟨rfl, rfl⟩
  · obtain ⟨q1, q2⟩ := product_get (vals 1) (vals 2) (vals 3) (vals 0) fun u v w e => (u • p1 + v • p2 + w • p3, e)
    refine ⟨_, ?_, q1.trans (by rw [Fin.prod_univ_four]; ring), fun idx x hx => ?_⟩
    · unfold generateHkle
      rw [ofFn4, ofFn4]
      simp [isEn, gridStep, h0, h1, h2, h3, py_bind_ok, py_pure, axisVec, List.mapM_cons, need_some]
    · refine (q2 (idx 1) (idx 2) (idx 3) (idx 0) _ _ _ _ (hx 1) (hx 2) (hx 3) (hx 0)).trans ?_
      simp [hklOf, enOf, Fin.sum_univ_four]
  · obtain ⟨q1, q2⟩ := product_get (vals 0) (vals 2) (vals 3) (vals 1) fun u v w e => (u • p1 + v • p2 + w • p3, e)
    refine ⟨_, ?_, q1.trans (by rw [Fin.prod_univ_four]; ring), fun idx x hx => ?_⟩
    · unfold generateHkle
      rw [ofFn4, ofFn4]
      simp [isEn, gridStep, h0, h1, h2, h3, py_bind_ok, py_pure, axisVec, List.mapM_cons, need_some]
    · refine (q2 (idx 0) (idx 2) (idx 3) (idx 1) _ _ _ _ (hx 0) (hx 2) (hx 3) (hx 1)).trans ?_
      simp [hklOf, enOf, Fin.sum_univ_four]
  · obtain ⟨q1, q2⟩ := product_get (vals 0) (vals 1) (vals 3) (vals 2) fun u v w e => (u • p1 + v • p2 + w • p3, e)
    refine ⟨_, ?_, q1.trans (by rw [Fin.prod_univ_four]; ring), fun idx x hx => ?_⟩
    · unfold generateHkle
      rw [ofFn4, ofFn4]
      simp [isEn, gridStep, h0, h1, h2, h3, py_bind_ok, py_pure, axisVec, List.mapM_cons, need_some]
    · refine (q2 (idx 0) (idx 1) (idx 3) (idx 2) _ _ _ _ (hx 0) (hx 1) (hx 3) (hx 2)).trans ?_
      simp [hklOf, enOf, Fin.sum_univ_four]
  · obtain ⟨q1, q2⟩ := product_get (vals 0) (vals 1) (vals 2) (vals 3) fun u v w e => (u • p1 + v • p2 + w • p3, e)
    refine ⟨_, ?_, q1.trans (by rw [Fin.prod_univ_four]), fun idx x hx => ?_⟩
    · unfold generateHkle
      rw [ofFn4, ofFn4]
      simp [isEn, gridStep, h0, h1, h2, h3, py_bind_ok, py_pure, axisVec, List.mapM_cons, need_some]
    · refine (q2 (idx 0) (idx 1) (idx 2) (idx 3) _ _ _ _ (hx 0) (hx 1) (hx 2) (hx 3)).trans ?_
      simp [hklOf, enOf, Fin.sum_univ_four]

example : ∃ L, generateHkle (List.ofFn ![.scalar 2, .tup [0, 1, 0.5], .tup [3, 1, -1], .scalar 7])
    (List.ofFn ![.vec ![1, 0, 0], .name "en".toList, .vec ![0, 1, 0], .vec ![0, 0, 1]]) = .ok L ∧ L.length = 4 ∧
    L[3]? = some ((![2, 2, 7] : V3), (0.5 : ℝ)) := by
  obtain ⟨L, h, hl, hi⟩ := C29_product (ax := ![.vec ![1, 0, 0], .name "en".toList, .vec ![0, 1, 0], .vec ![0, 0, 1]])
    (p1 := ![1, 0, 0]) (p2 := ![0, 1, 0]) (p3 := ![0, 0, 1]) (n := 1) (Or.inr (Or.inl ⟨rfl, rfl⟩))
    (g := ![.scalar 2, .tup [0, 1, 0.5], .tup [3, 1, -1], .scalar 7]) (vals := ![[2], [0, 0.5], [3, 2], [7]])
    (by
      intro i
      fin_cases i <;> simp [gridVals, arange]
      · norm_num [show Int.toNat 2 = 2 from rfl, List.range_succ]
      · norm_num [show Int.toNat 2 = 2 from rfl, List.range_succ])
  refine ⟨L, h, by rw [hl, Fin.prod_univ_four]; rfl, ?_⟩
  have := hi ![0, 1, 1, 0] ![2, 0.5, 2, 7] (by intro i; fin_cases i <;> rfl)
  have e : hklOf ![.vec ![1, 0, 0], .name "en".toList, .vec ![0, 1, 0], .vec ![0, 0, 1]] ![2, 0.5, 2, 7] = ![2, 2, 7] := by
    apply ext3 <;> simp [hklOf, Fin.sum_univ_four]
  rw [e] at this
  have e2 : enOf ![.vec ![1, 0, 0], .name "en".toList, .vec ![0, 1, 0], .vec ![0, 0, 1]] ![2, 0.5, 2, 7] = 0.5 := by
    simp [enOf, Fin.sum_univ_four]
  rw [e2] at this
  exact this

end Tavi
