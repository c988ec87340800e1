import Verif.Props.ScanPlot
import Verif.Props.Energy
import Mathlib.Analysis.SpecialFunctions.Trigonometric.Bounds

/-!
# The axis `del_q` of a scan (C97)
-/

namespace Tavi

open Spec

/-! ## The words of the property -/

/-- The position from which `del_q` is measured: the middle point, the earlier one of two. -/
def Spec.Middle {α : Type} (l : List α) (m : α) : Prop := l[(l.length - 1) / 2]? = some m

/-- An axis written as a name with an angle in brackets. -/
structure Spec.AngleAxis (ax angle : Str) : Prop where
  text : ∃ pre inner, ax = pre ++ '(' :: (inner ++ [')']) ∧ pre ≠ [] ∧ inner ≠ [] ∧ '(' ∉ inner ∧ ')' ∉ inner ∧ angle = strip inner

/-- The modulus of `ki - kf`, for two energies (E = ħ²k²/2m) and the angle between the beams in degrees. -/
noncomputable def Spec.momentum (ei ef tt : ℝ) : ℝ :=
  √((√(ei / ksq2eng) - √(ef / ksq2eng) * Real.cos (tt * (Real.pi / 180))) ^ 2 +
    (√(ef / ksq2eng) * Real.sin (tt * (Real.pi / 180))) ^ 2)

/-! ## The name of the angle -/

theorem find_last {n j : ℕ} {p : ℕ → Bool} (hj : j < n) (hp : p j = true) (hl : ∀ k, j < k → k < n → p k = false) :
    (List.range n).reverse.find? p = some j := by
  induction n with
  | zero => omega
  | succ n ih =>
    rw [List.range_succ, List.reverse_append, List.reverse_singleton, List.singleton_append, List.find?_cons]
    by_cases e : j = n
    · rw [← e, hp]
    · rw [hl n (by omega) (by omega)]
      exact ih (by omega) fun k h1 h2 => hl k h1 (by omega)

theorem parenName_ok {ax angle : Str} (h : AngleAxis ax angle) : ∃ inner, parenName ax = some inner ∧ strip inner = angle := by
  obtain ⟨pre, inner, rfl, h1, h2, h3, h4, rfl⟩ := h.text
  refine ⟨inner, ?_, rfl⟩
  have hp : 0 < pre.length := List.length_pos_iff.2 h1
  have hi : 0 < inner.length := List.length_pos_iff.2 h2
  have hlen : (pre ++ '(' :: (inner ++ [')'])).length = pre.length + inner.length + 2 := by simp; omega
  have at1 : (pre ++ '(' :: (inner ++ [')']))[pre.length + inner.length + 1]? = some ')' := by
    rw [List.getElem?_append_right (by omega), show pre.length + inner.length + 1 - pre.length = inner.length + 1 by omega,
      List.getElem?_cons_succ, List.getElem?_append_right (le_refl _), Nat.sub_self]
    rfl
  have at2 : (pre ++ '(' :: (inner ++ [')']))[pre.length]? = some '(' := by
    rw [List.getElem?_append_right (le_refl _), Nat.sub_self]; rfl
  have atk : ∀ k, pre.length < k → k < pre.length + inner.length + 1 →
      (pre ++ '(' :: (inner ++ [')']))[k]? ≠ some '(' := by
    intro k hk1 hk2 e
    rw [List.getElem?_append_right (by omega), show k - pre.length = (k - pre.length - 1) + 1 by omega,
      List.getElem?_cons_succ, List.getElem?_append_left (by omega)] at e
    exact h3 (List.mem_of_getElem? e)
  unfold parenName
  rw [hlen, find_last (j := pre.length + inner.length + 1) (by omega) (by rw [at1]; rfl) (by intro k _ _; omega)]
  dsimp only
  rw [find_last (j := pre.length) (by omega) (by rw [at2]; simp; omega)]
  · dsimp only
    congr 1
    rw [show pre ++ '(' :: (inner ++ [')']) = (pre ++ '(' :: inner) ++ [')'] by simp,
      List.take_left' (by simp; omega), show pre ++ '(' :: inner = (pre ++ ['(']) ++ inner by simp,
      List.drop_left' (by simp)]
  · intro k hk1 hk2
    by_cases hk : k < pre.length + inner.length + 1
    · rw [Bool.and_eq_false_iff]
      left
      exact beq_false_of_ne (atk k hk1 hk)
    · rw [Bool.and_eq_false_iff]
      right
      simp; omega

theorem parenName_none {ax : Str} (h : '(' ∉ ax ∨ ')' ∉ ax) : parenName ax = none := by
  unfold parenName
  dsimp only
  split
  · rfl
  · rename_i j hj
    have hc := List.find?_some hj
    rcases h with h | h
    · split
      · rfl
      · rename_i i hi
        have := List.find?_some hi
        rw [Bool.and_eq_true] at this
        exact absurd (List.mem_of_getElem? (beq_iff_eq.1 this.1)) h
    · exact absurd (List.mem_of_getElem? (beq_iff_eq.1 hc)) h

/-! ## The two kinds of scans -/

theorem extremes {qs : List ℝ} (hne : qs ≠ []) : ∃ mx ∈ qs, ∃ mn ∈ qs, (∀ q ∈ qs, q ≤ mx ∧ mn ≤ q) ∧
    npMax (qs.map some) = .ok (some mx) ∧ npMin (qs.map some) = .ok (some mn) := by
  have hf : qs.toFinset.Nonempty := by
    obtain ⟨a, l, rfl⟩ := List.exists_cons_of_ne_nil hne
    exact ⟨a, by simp⟩
  have e1 := Finset.max'_mem _ hf
  have e2 := Finset.min'_mem _ hf
  have f1 := fun q (hq : q ∈ qs) => Finset.le_max' _ q (List.mem_toFinset.2 hq)
  have f2 := fun q (hq : q ∈ qs) => Finset.min'_le _ q (List.mem_toFinset.2 hq)
  exact ⟨_, List.mem_toFinset.1 e1, _, List.mem_toFinset.1 e2, fun q hq => ⟨f1 q hq, f2 q hq⟩,
    npMax_ok (List.mem_toFinset.1 e1) f1, npMin_ok (List.mem_toFinset.1 e2) f2⟩

theorem middle_exists {α : Type} {l : List α} (hne : l ≠ []) : ∃ m, Middle l m := by
  have : (l.length - 1) / 2 < l.length := by
    have := List.length_pos_iff.2 hne
    omega
  exact ⟨_, List.getElem?_eq_getElem this⟩

/-- **C97**: in a scan along Q, where the moduli differ by more than 1.1e-4, `del_q` is the difference from the middle point;
whatever angle is named. -/
theorem C97_radial (s : Scan) (qs : List ℝ) (q0 : ℝ) (h : s.qs = .ok (qs.map some)) (hm : Middle qs q0)
    (hr : ∃ a ∈ qs, ∃ b ∈ qs, b - a > 1.1e-4) (ax : Str) :
    s.getDelQ ax = .ok (qs.map fun q => some (q - q0)) := by
  obtain ⟨a, ha, b, hb, hab⟩ := hr
  obtain ⟨mx, h1, mn, h2, h3, h4, h5⟩ := extremes (List.ne_nil_of_mem ha)
  have hd : mx - mn > 1.1e-4 := by
    have := (h3 b hb).1
    have := (h3 a ha).2
    linarith
  unfold Scan.getDelQ
  rw [h, py_bind_ok, h4, py_bind_ok, h5, py_bind_ok]
  dsimp only
  rw [if_pos (by show mx - mn > 1.1e-4; exact hd), List.length_map, List.getElem?_map, show qs[(qs.length - 1) / 2]? = some q0 from hm]
  show Except.ok (((qs.map some).map (nsub · (some q0)))) = _
  rw [List.map_map]
  rfl

theorem foldl_nadd (qs : List ℝ) (a : ℝ) : (qs.map some).foldl nadd (some a) = some (a + qs.sum) := by
  induction qs generalizing a with
  | nil => simp
  | cons q qs ih =>
    rw [List.map_cons, List.foldl_cons, show nadd (some a) (some q) = some (a + q) from rfl, ih, List.sum_cons, add_assoc]

/-- **C97**: in a rocking scan, where the moduli are equal within 1.1e-4, `del_q` is the arc from the middle point: the angle from
there, in radians, times the mean modulus. -/
theorem C97_rocking (s : Scan) (qs as : List ℝ) (a0 : ℝ) (h : s.qs = .ok (qs.map some)) (hne : qs ≠ [])
    (hr : ∀ a ∈ qs, ∀ b ∈ qs, b - a ≤ 1.1e-4) (ax angle : Str) (hax : AngleAxis ax angle) (ha : s.col angle = .ok (as.map some))
    (hl : as.length = qs.length) (hm : Middle as a0) :
    s.getDelQ ax = .ok (as.map fun a => some ((a - a0) * (Real.pi / 180) * (qs.sum / qs.length))) := by
  obtain ⟨mx, h1, mn, h2, h3, h4, h5⟩ := extremes hne
  obtain ⟨inner, hi, rfl⟩ := parenName_ok hax
  have hn : (qs.length : ℝ) ≠ 0 := by
    have := List.length_pos_iff.2 hne
    positivity
  unfold Scan.getDelQ
  rw [h, py_bind_ok, h4, py_bind_ok, h5, py_bind_ok]
  dsimp only
  rw [if_neg (by show ¬ mx - mn > 1.1e-4; exact not_lt.2 (hr mn h2 mx h1)), hi, need_some, py_bind_ok, ha, py_bind_ok,
    List.length_map, List.getElem?_map, ← hl, show as[(as.length - 1) / 2]? = some a0 from hm, hl, foldl_nadd, zero_add]
  show Except.ok ((as.map some).map _) = _
  rw [List.map_map]
  congr 1
  refine List.map_congr_left fun a _ => ?_
  show nmul (Option.map deg2rad (some (a - a0))) (ndiv (some qs.sum) (some (qs.length : ℝ))) = _
  unfold ndiv nmul deg2rad
  simp [hn]

/-- **C97** (finding): the angle has no default. In a rocking scan an axis without an angle in brackets raises `AttributeError`,
although the code means to take s1. -/
theorem C97_no_default (s : Scan) (qs : List ℝ) (h : s.qs = .ok (qs.map some)) (hne : qs ≠ [])
    (hr : ∀ a ∈ qs, ∀ b ∈ qs, b - a ≤ 1.1e-4) (ax : Str) (hax : '(' ∉ ax ∨ ')' ∉ ax) :
    s.getDelQ ax = .error .attributeError := by
  obtain ⟨mx, h1, mn, h2, h3, h4, h5⟩ := extremes hne
  unfold Scan.getDelQ
  rw [h, py_bind_ok, h4, py_bind_ok, h5, py_bind_ok]
  dsimp only
  rw [if_neg (by show ¬ mx - mn > 1.1e-4; exact not_lt.2 (hr mn h2 mx h1)), parenName_none hax]
  rfl

/-! ## The modulus -/

/-- **C97**: the modulus is the recorded one, if there is one. -/
theorem C97_recorded (s : Scan) (q : List Num) (h : s.col "q".toList = .ok q) : s.qs = .ok q := by
  unfold Scan.qs
  rw [need_eq_ok.1 h]

theorem side_eq (a b t : ℝ) : √(a ^ 2 + b ^ 2 - 2 * a * b * Real.cos t) = √((a - b * Real.cos t) ^ 2 + (b * Real.sin t) ^ 2) := by
  congr 1
  have := Real.sin_sq_add_cos_sq t
  linear_combination (-b ^ 2) * this

theorem wavenumber_ok {e : ℝ} (h : ksq2eng * 1e-6 ^ 2 ≤ e) : en2q e = .ok √(e / ksq2eng) ∧ ¬ |√(e / ksq2eng)| < 1e-6 := by
  have hk := ksq2eng_pos
  have he : (1e-6 : ℝ) ^ 2 ≤ e / ksq2eng := by rw [le_div_iff₀ hk]; linarith
  constructor
  · unfold en2q
    rw [if_neg (not_lt.2 (le_trans (by positivity) h))]
  · rw [not_lt, abs_of_nonneg (Real.sqrt_nonneg _)]
    exact Real.le_sqrt_of_sq_le he

/-- **C97**: otherwise it is that of `ki - kf`, from the energies (the final one recorded, or the incident one less the transfer) and
the scattering angle, at every point. -/
theorem C97_computed (s : Scan) (rows : List (ℝ × ℝ × ℝ)) (hq : lookupKey "q".toList s.data = none)
    (hei : lookupKey "ei".toList s.data = some (rows.map fun r => some r.1))
    (hef : lookupKey "ef".toList s.data = some (rows.map fun r => some r.2.1) ∨
      lookupKey "ef".toList s.data = none ∧ lookupKey "en".toList s.data = some (rows.map fun r => some (r.1 - r.2.1)))
    (htt : lookupKey "s2".toList s.data = some (rows.map fun r => some r.2.2) ∨
      lookupKey "s2".toList s.data = none ∧ lookupKey "2theta".toList s.data = some (rows.map fun r => some r.2.2))
    (hpos : ∀ r ∈ rows, ksq2eng * 1e-6 ^ 2 ≤ r.1 ∧ ksq2eng * 1e-6 ^ 2 ≤ r.2.1) :
    s.qs = .ok (rows.map fun r => some (momentum r.1 r.2.1 r.2.2)) := by
  have e1 : (some <$> zipN nsub (rows.map fun r : ℝ × ℝ × ℝ => some r.1) (rows.map fun r => some (r.1 - r.2.1)) : Py _) =
      .ok (some (rows.map fun r : ℝ × ℝ × ℝ => some r.2.1)) := by
    unfold zipN
    rw [if_pos (by simp), List.zipWith_map, List.zipWith_self]
    show Except.ok (some _) = _
    congr 2
    refine List.map_congr_left fun r _ => ?_
    show some (r.1 - (r.1 - r.2.1)) = _
    congr 1; ring
  have ek : ∀ g : ℝ × ℝ × ℝ → ℝ, (∀ r ∈ rows, ksq2eng * 1e-6 ^ 2 ≤ g r) →
      ((rows.map fun r => (some (g r) : Num)).mapM fun e => do en2q (← need e .nonFinite)) =
        .ok (rows.map fun r => √(g r / ksq2eng)) := by
    intro g hg
    rw [List.mapM_map]
    exact mapM_ok fun r hr => (wavenumber_ok (hg r hr)).1
  unfold Scan.qs
  rw [hq]
  dsimp only
  rw [hei, need_some, py_bind_ok]
  have last : ((((rows.map fun r => √(r.1 / ksq2eng)).zip (rows.map fun r => √(r.2.1 / ksq2eng))).zip
      (rows.map fun r => (some r.2.2 : Num))).mapM fun kkt => do
        let tt ← need kkt.2 .nonFinite
        some <$> sideFromTriangle kkt.1.1 kkt.1.2 (deg2rad tt)) =
      .ok (rows.map fun r => some (momentum r.1 r.2.1 r.2.2)) := by
    rw [List.zip_map', List.zip_map', List.mapM_map]
    refine mapM_ok fun r hr => ?_
    show some <$> sideFromTriangle √(r.1 / ksq2eng) √(r.2.1 / ksq2eng) (deg2rad r.2.2) = _
    unfold sideFromTriangle
    rw [if_neg (not_or.2 ⟨(wavenumber_ok (hpos r hr).1).2, (wavenumber_ok (hpos r hr).2).2⟩), side_eq]
    rfl
  rcases hef with h | ⟨h, h'⟩
  · rw [h]
    dsimp only
    rw [ek (fun r => r.1) fun r hr => (hpos r hr).1, pure_bind, py_bind_ok, need_some, py_bind_ok,
      ek (fun r => r.2.1) fun r hr => (hpos r hr).2, py_bind_ok]
    rcases htt with g | ⟨g, g'⟩
    · rw [g]
      exact last
    · rw [g, g']
      exact last
  · rw [h, h']
    dsimp only
    rw [e1, py_bind_ok, ek (fun r => r.1) fun r hr => (hpos r hr).1, py_bind_ok, need_some, py_bind_ok,
      ek (fun r => r.2.1) fun r hr => (hpos r hr).2, py_bind_ok]
    rcases htt with g | ⟨g, g'⟩
    · rw [g]
      exact last
    · rw [g, g']
      exact last

/-! ## What the arc says -/

/-- **C97**: the arc differs from the distance of the two Q vectors (of modulus `q`, at the angle `δ`) by at most `q |δ|³ / 24`, and
is never shorter. -/
theorem C97_arc (q δ : ℝ) (hq : 0 ≤ q) :
    √((q * Real.cos δ - q) ^ 2 + (q * Real.sin δ) ^ 2) ≤ |q * δ| ∧
    |q * δ| ≤ √((q * Real.cos δ - q) ^ 2 + (q * Real.sin δ) ^ 2) + q * |δ| ^ 3 / 24 := by
  have e : √((q * Real.cos δ - q) ^ 2 + (q * Real.sin δ) ^ 2) = 2 * q * |Real.sin (δ / 2)| := by
    rw [show 2 * q * |Real.sin (δ / 2)| = |2 * q * Real.sin (δ / 2)| by
      rw [abs_mul (2 * q), abs_of_nonneg (show 0 ≤ 2 * q by linarith)],
      ← Real.sqrt_sq_eq_abs]
    congr 1
    have h1 := Real.sin_sq_add_cos_sq δ
    have h2 : Real.cos δ = 1 - 2 * Real.sin (δ / 2) ^ 2 := by
      have := Real.cos_two_mul (δ / 2)
      have h3 := Real.sin_sq_add_cos_sq (δ / 2)
      rw [show 2 * (δ / 2) = δ by ring] at this
      linarith
    linear_combination q ^ 2 * h1 - 2 * q ^ 2 * h2
  have ha : |δ / 2| = |δ| / 2 := by rw [abs_div, abs_two]
  rw [e, abs_mul, abs_of_nonneg hq]
  constructor
  · have := Real.abs_sin_le_abs (x := δ / 2)
    rw [ha] at this
    nlinarith
  · have h1 := Real.abs_sub_sin_le (δ / 2)
    have h2 := abs_sub_abs_le_abs_sub (δ / 2) (Real.sin (δ / 2))
    rw [ha] at h1 h2
    have h3 : |δ| / 2 - |Real.sin (δ / 2)| ≤ (|δ| / 2) ^ 3 / 6 := h2.trans h1
    nlinarith [mul_le_mul_of_nonneg_left h3 hq]

/-! ## Loaded scans -/

section
variable {iso : Str → Py Str} {xml : List Str → Option Str} {fs : FS} {dir : List Str} {file : Str} {f : SpiceFile} {ds : Str}
  {m : ℕ} {s : ScanObj}

theorem shown_delQ (h : Loaded iso xml fs dir file f ds (scanName m) s) {x0 y0 ch : Str} {v : ℝ}
    (hd : NormalHeader f x0 y0 ch v) (fmt : Val → Str) (ax : Str) (hax : isSubstr "del_q".toList ax = true) (ya : Option Str)
    {ly : List ℝ} (hy : FileColumn f (ya.getD y0) ly) (hu : '_' ∉ ya.getD y0) (i : ScanInfo) (hi : scanInfo s = .ok i)
    {xs : List Num} (hx : (s.view i).getDelQ ax = .ok xs) :
    ∃ r, s.getData fmt (some ax) ya none none none = .ok r ∧ r.data.x = xs ∧ r.data.y = ly.map some ∧
      r.data.err = ly.map (fun c => if c < 0 then none else some √c) ∧
      LabelledAs fmt f m ax (ya.getD y0) v ch [] r := by
  obtain ⟨i', hi', hp, hall⟩ := getData_normal fmt h hd
  obtain rfl : i' = i := Except.ok.inj (hi'.symm.trans hi)
  obtain ⟨r, hr, hdat, hl⟩ := hall (some ax) ya none none none hu (ScanData1D.init xs (ly.map some)) (by
    unfold Scan.getData
    simp only [Option.getD_some, hax, if_true]
    rw [hx, py_bind_ok, view_col h i' hy, py_bind_ok, labelOk_plain hp hu, py_bind_ok, hp]
    rfl)
  refine ⟨r, hr, by rw [hdat]; rfl, by rw [hdat]; rfl, ?_, hl⟩
  rw [hdat]
  show (ly.map some).map nsqrt = _
  rw [List.map_map]
  exact List.map_congr_left fun c _ => rfl

end

/-- **C97**: a loaded scan along Q over `del_q` shows the moduli of its file from the middle point on. -/
theorem C97_shown_radial (iso : Str → Py Str) (xml : List Str → Option Str) (fs : FS) (dir : List Str) (file : Str) (f : SpiceFile)
    (ds : Str) (m : ℕ) (s : ScanObj) (h : Loaded iso xml fs dir file f ds (scanName m) s) (x0 y0 ch : Str) (v : ℝ)
    (hd : NormalHeader f x0 y0 ch v) (fmt : Val → Str) (ax : Str) (hax : isSubstr "del_q".toList ax = true) (ya : Option Str)
    (ly lq : List ℝ) (q0 : ℝ) (hy : FileColumn f (ya.getD y0) ly) (hu : '_' ∉ ya.getD y0) (hq : FileColumn f "q".toList lq)
    (hm : Middle lq q0) (hr : ∃ a ∈ lq, ∃ b ∈ lq, b - a > 1.1e-4) :
    ∃ r, s.getData fmt (some ax) ya none none none = .ok r ∧ r.data.x = lq.map (fun q => some (q - q0)) ∧
      r.data.y = ly.map some ∧ r.data.err = ly.map (fun c => if c < 0 then none else some √c) ∧
      LabelledAs fmt f m ax (ya.getD y0) v ch [] r := by
  obtain ⟨i, hi, _⟩ := getData_normal fmt h hd
  exact shown_delQ h hd fmt ax hax ya hy hu i hi
    (C97_radial _ lq q0 (C97_recorded _ _ (view_col h i hq)) hm hr ax)

/-- **C97**: a loaded rocking scan over `del_q(angle)` shows the arcs from the middle point. -/
theorem C97_shown_rocking (iso : Str → Py Str) (xml : List Str → Option Str) (fs : FS) (dir : List Str) (file : Str) (f : SpiceFile)
    (ds : Str) (m : ℕ) (s : ScanObj) (h : Loaded iso xml fs dir file f ds (scanName m) s) (x0 y0 ch : Str) (v : ℝ)
    (hd : NormalHeader f x0 y0 ch v) (fmt : Val → Str) (ax angle : Str) (hax : isSubstr "del_q".toList ax = true)
    (hang : AngleAxis ax angle) (ya : Option Str) (ly lq la : List ℝ) (a0 : ℝ) (hy : FileColumn f (ya.getD y0) ly)
    (hu : '_' ∉ ya.getD y0) (hq : FileColumn f "q".toList lq) (ha : FileColumn f angle la) (hne : lq ≠ [])
    (hl : la.length = lq.length) (hm : Middle la a0) (hr : ∀ a ∈ lq, ∀ b ∈ lq, b - a ≤ 1.1e-4) :
    ∃ r, s.getData fmt (some ax) ya none none none = .ok r ∧
      r.data.x = la.map (fun a => some ((a - a0) * (Real.pi / 180) * (lq.sum / lq.length))) ∧
      r.data.y = ly.map some ∧ r.data.err = ly.map (fun c => if c < 0 then none else some √c) ∧
      LabelledAs fmt f m ax (ya.getD y0) v ch [] r := by
  obtain ⟨i, hi, _⟩ := getData_normal fmt h hd
  exact shown_delQ h hd fmt ax hax ya hy hu i hi
    (C97_rocking _ lq la a0 (C97_recorded _ _ (view_col h i hq)) hne hr ax angle hang (view_col h i ha) hl hm)

/-! ## Concrete cases -/

/-- A scan with the columns given. -/
noncomputable def qScan (cols : List (Str × List Num)) : Scan := { exScan with data := cols }

theorem axis_s1 : AngleAxis "del_q (s1)".toList "s1".toList :=
  ⟨"del_q ".toList, "s1".toList, rfl, by decide, by decide, by decide, by decide, by decide⟩

/-- A rocking scan: three points one degree apart at |Q| = 2. -/
example : (qScan [("s1".toList, [some 29, some 30, some 31]), ("q".toList, [some 2, some 2, some 2])]).getDelQ
    "del_q (s1)".toList = .ok [some (-(Real.pi / 90)), some 0, some (Real.pi / 90)] := by
  have := C97_rocking (qScan [("s1".toList, [some 29, some 30, some 31]), ("q".toList, [some 2, some 2, some 2])])
    [2, 2, 2] [29, 30, 31] 30 (C97_recorded _ _ (by unfold Scan.col; simp [qScan, lookupKey]))
    (by simp) (by intro a ha b hb; simp at ha hb; subst ha hb; norm_num) _ _ axis_s1 (by unfold Scan.col; simp [qScan, lookupKey]) rfl rfl
  rw [this]
  simp
  constructor <;> ring

/-- A scan along Q with an even number of points: the earlier middle one is the origin. -/
example : (qScan [("q".toList, [some 1, some 2, some 3, some 4])]).getDelQ
    "del_q".toList = .ok [some (-1), some 0, some 1, some 2] := by
  have := C97_radial (qScan [("q".toList, [some 1, some 2, some 3, some 4])])
    [1, 2, 3, 4] 2 (C97_recorded _ _ (by unfold Scan.col; simp [qScan, lookupKey])) rfl
    ⟨1, by simp, 4, by simp, by norm_num⟩ "del_q".toList
  rw [this]
  simp
  norm_num

/-- The same rocking scan without a name of the angle. -/
example : (qScan [("s1".toList, [some 29, some 30, some 31]), ("q".toList, [some 2, some 2, some 2])]).getDelQ
    "del_q".toList = .error .attributeError :=
  C97_no_default _ [2, 2, 2] (C97_recorded _ _ (by unfold Scan.col; simp [qScan, lookupKey]))
    (by simp) (by intro a ha b hb; simp at ha hb; subst ha hb; norm_num) _ (.inl (by decide))

/-- Without a q column, at the scattering angle 180°: |Q| = ki + kf. -/
example : (qScan [("ei".toList, [some 14]), ("en".toList, [some 5]), ("2theta".toList, [some 180])]).qs =
    .ok [some (√(14 / ksq2eng) + √(9 / ksq2eng))] := by
  have hb : ksq2eng * 1e-6 ^ 2 ≤ 9 := by unfold ksq2eng; norm_num
  have := C97_computed (qScan [("ei".toList, [some 14]), ("en".toList, [some 5]), ("2theta".toList, [some 180])])
    [(14, 9, 180)] (by simp [qScan, lookupKey]) (by simp [qScan, lookupKey])
    (.inr ⟨by simp [qScan, lookupKey], by simp [qScan, lookupKey]; norm_num⟩)
    (.inr ⟨by simp [qScan, lookupKey], by simp [qScan, lookupKey]⟩) (by simp; constructor <;> linarith)
  rw [this]
  unfold momentum
  have e : (180 : ℝ) * (Real.pi / 180) = Real.pi := by ring
  simp only [List.map_cons, List.map_nil, e, Real.cos_pi, Real.sin_pi, mul_zero, mul_neg, mul_one, sub_neg_eq_add]
  rw [show ((0 : ℝ)) ^ 2 = 0 by norm_num, add_zero, Real.sqrt_sq (by positivity)]

end Tavi
