import Verif.Model.ConvPool
import Verif.Props.Convolution

/-!
# Convolutions in a pool of processes (C99)
-/

namespace Tavi

open Matrix Spec

/-! ## The words of the property -/

/-- A cache holds what the function returns for the arguments. -/
def Spec.Sound (c : MeshCache) : Prop := ∀ s n mesh, c.lookup (s, n) = some mesh → mesh = meshgrid s n

/-- Every job finishes. -/
def Spec.Complete (schedule : List (ℕ × ℕ)) (n : ℕ) : Prop := ∀ i < n, ∃ w, (w, i) ∈ schedule

/-! ## The cache changes nothing -/

theorem get_sound {c : MeshCache} (h : Sound c) (s : ℕ) (n : Pts) : (c.get s n).1 = meshgrid s n ∧ Sound (c.get s n).2 := by
  unfold MeshCache.get
  split
  · rename_i mesh hm
    exact ⟨h s n mesh hm, h⟩
  · refine ⟨rfl, fun s' n' mesh hm => ?_⟩
    rw [List.lookup_cons] at hm
    split at hm
    · rename_i he
      obtain ⟨rfl, rfl⟩ := Prod.mk.inj (beq_iff_eq.1 he)
      exact (Option.some.inj hm).symm
    · exact h s' n' mesh hm

theorem ptsOf_mesh (sig : ℝ × ℝ × ℝ) (m : Mat 3 3) (n : Pts) : ptsOf (meshgrid 3 n) sig m 3 = generatePts sig m 3 n := by
  unfold ptsOf meshgrid generatePts
  rw [List.map_map, List.filter_map]
  have e : ((fun u : V3 => ![u 0 * sig.1, u 1 * sig.2.1, u 2 * sig.2.2]) ∘
      fun i : ℕ × ℕ × ℕ => (![lineAt (3 : ℕ) n.1 i.1, lineAt (3 : ℕ) n.2.1 i.2.1, lineAt (3 : ℕ) n.2.2 i.2.2] : V3)) = nodeAt sig 3 n := by
    funext i
    rfl
  rw [e]
  congr 1

theorem convolutionIn_eq {B : ℕ} {c : MeshCache} (h : Sound c) (reso : Option ResoParams) (disp inten : Fin B → V3 → ℝ) (rez : ℝ)
    (maxStep : ℕ) : (convolutionIn c reso disp inten rez maxStep).1 = convolution reso disp inten rez maxStep ∧
      Sound (convolutionIn c reso disp inten rez maxStep).2 := by
  have e : convolution reso disp inten rez maxStep = convPrep reso >>= fun t =>
      skipped t.1 disp (generatePts t.2.2.1 t.2.1 3 (10, 10, 10)) t.2.2.2.1 >>= fun skip =>
        cond skip (pure 0) (secondRound t.1 disp inten t.2.2.1 t.2.1 t.2.2.2.2.2
          (refinedPts t.1 disp t.2.2.1 t.2.1 (t.2.2.2.2.1 * rez) maxStep)) := by
    unfold convolution convPrep
    simp only [bind_assoc, pure_bind]
  rw [e]
  unfold convolutionIn
  cases convPrep reso with
  | error e => exact ⟨rfl, h⟩
  | ok t =>
    obtain ⟨p, m, sig, sEn, sCoh, vols⟩ := t
    dsimp only
    rw [py_bind_ok]
    dsimp only
    obtain ⟨g1, g2⟩ := get_sound h 3 (10, 10, 10)
    unfold convRounds
    dsimp only
    rw [g1, ptsOf_mesh]
    cases skipped p disp (generatePts sig m 3 (10, 10, 10)) sEn with
    | error e => exact ⟨rfl, g2⟩
    | ok b =>
      cases b with
      | true => exact ⟨rfl, g2⟩
      | false =>
        dsimp only
        obtain ⟨k1, k2⟩ := get_sound g2 3 (refinedPts p disp sig m (sCoh * rez) maxStep)
        rw [k1, ptsOf_mesh]
        exact ⟨rfl, k2⟩

/-! ## Schedules -/

theorem mapM_indices {α β : Type} (f : α → Py β) (g : ℕ → Py β) (l : List α) (k : ℕ) (h : ∀ i (hi : i < l.length), g (k + i) = f l[i]) :
    (List.range' k l.length).mapM g = l.mapM f := by
  induction l generalizing k with
  | nil => rfl
  | cons a l ih =>
    rw [List.length_cons, List.range'_succ, List.mapM_cons, List.mapM_cons]
    have e := h 0 (by simp)
    rw [Nat.add_zero] at e
    rw [e, ih (k + 1) fun i hi => by
      have := h (i + 1) (by simpa using hi)
      rw [show k + 1 + i = k + (i + 1) by omega, this]
      rfl]
    rfl

theorem mapM_first_error {β : Type} (g : ℕ → Py β) (e : PyErr) (j n k : ℕ) (hj : j < n) (hok : ∀ i < j, ∃ b, g (k + i) = .ok b)
    (he : g (k + j) = .error e) : (List.range' k n).mapM g = .error e := by
  induction n generalizing j k with
  | zero => omega
  | succ n ih =>
    rw [List.range'_succ, List.mapM_cons]
    cases j with
    | zero =>
      rw [Nat.add_zero] at he
      rw [he]
      rfl
    | succ j =>
      obtain ⟨b, hb⟩ := hok 0 (by omega)
      rw [Nat.add_zero] at hb
      rw [hb, py_bind_ok, ih j (k + 1) (by omega) (fun i hi => by
        obtain ⟨b, hb⟩ := hok (i + 1) (by omega)
        exact ⟨b, by rw [show k + 1 + i = k + (i + 1) by omega, hb]⟩) (by rw [show k + 1 + j = k + (j + 1) by omega, he])]
      rfl

section
variable {B : ℕ} (jobs : List (Option ResoParams)) (disp inten : Fin B → V3 → ℝ)

/-- The outcome of a job on its own. -/
noncomputable def Spec.alone (i : ℕ) : Option (Py Num) :=
  jobs[i]?.map fun job => jobOutcome (convolution job disp inten (1 / 5) 100)

theorem finish_inv (schedule : List (ℕ × ℕ)) (s : Pool) (hc : ∀ w, Sound (s.caches w))
    (hd : ∀ i r, s.done i = some r → Spec.alone jobs disp inten i = some r) :
    (∀ w, Sound ((schedule.foldl (Pool.finish jobs disp inten) s).caches w)) ∧
    (∀ i r, (schedule.foldl (Pool.finish jobs disp inten) s).done i = some r → Spec.alone jobs disp inten i = some r) ∧
    ∀ i < jobs.length, ((∃ w, (w, i) ∈ schedule) ∨ s.done i ≠ none) →
      (schedule.foldl (Pool.finish jobs disp inten) s).done i ≠ none := by
  induction schedule generalizing s with
  | nil => exact ⟨hc, hd, fun i _ h => h.resolve_left (by simp)⟩
  | cons e l ih =>
    rw [List.foldl_cons]
    have step : (∀ w, Sound ((Pool.finish jobs disp inten s e).caches w)) ∧
        (∀ i r, (Pool.finish jobs disp inten s e).done i = some r → Spec.alone jobs disp inten i = some r) ∧
        (∀ i < jobs.length, (i = e.2 ∨ s.done i ≠ none) → (Pool.finish jobs disp inten s e).done i ≠ none) := by
      unfold Pool.finish
      split
      · rename_i hn
        refine ⟨hc, hd, fun i hi h => h.resolve_left ?_⟩
        rintro rfl
        exact absurd (List.getElem?_eq_none_iff.1 hn) (by omega)
      · rename_i job hj
        obtain ⟨c1, c2⟩ := convolutionIn_eq (hc e.1) job disp inten (1 / 5) 100
        refine ⟨fun w => ?_, fun i r hr => ?_, fun i hi h => ?_⟩
        · dsimp only
          rw [Function.update_apply]
          split
          · exact c2
          · exact hc w
        · dsimp only at hr
          rw [Function.update_apply] at hr
          split at hr
          · rename_i hi
            subst hi
            unfold Spec.alone
            rw [hj, ← hr, c1]
            rfl
          · exact hd i r hr
        · dsimp only
          rw [Function.update_apply]
          split
          · simp
          · rename_i hne
            exact h.resolve_left hne
    obtain ⟨s1, s2, s3⟩ := step
    obtain ⟨i1, i2, i3⟩ := ih _ s1 s2
    refine ⟨i1, i2, fun i hi h => i3 i hi ?_⟩
    rcases h with ⟨w, h⟩ | h
    · rcases List.mem_cons.1 h with h | h
      · right
        exact s3 i hi (.inl (by rw [← h]))
      · exact .inl ⟨w, h⟩
    · exact .inr (s3 i hi (.inr h))

theorem outcome_done (caches : ℕ → MeshCache) (hc : ∀ w, Sound (caches w)) (schedule : List (ℕ × ℕ)) (i : ℕ) (hi : i < jobs.length)
    (h : ∃ w, (w, i) ∈ schedule) :
    (need ((schedule.foldl (Pool.finish jobs disp inten) ⟨caches, fun _ => none⟩).done i) .stopIteration >>= id)
      = jobOutcome (convolution jobs[i] disp inten (1 / 5) 100) := by
  obtain ⟨-, i2, i3⟩ := finish_inv jobs disp inten schedule ⟨caches, fun _ => none⟩ hc (fun i r hr => by cases hr)
  obtain ⟨r, hr⟩ := Option.ne_none_iff_exists'.1 (i3 i hi (.inl h))
  have := i2 i r hr
  unfold Spec.alone at this
  rw [List.getElem?_eq_getElem hi] at this
  rw [hr, need_some, py_bind_ok]
  exact (Option.some.inj this).symm

/-- **C99**: whichever worker does which job, in whatever order they finish and whatever meshes they have kept from before: if every
job finishes, the outcome is that of doing the jobs one after the other, and the numbers are in the order of the jobs. -/
theorem C99_schedule (caches : ℕ → MeshCache) (hc : ∀ w, Sound (caches w)) (schedule : List (ℕ × ℕ))
    (h : Complete schedule jobs.length) :
    calculate caches schedule disp inten jobs = jobs.mapM fun job => jobOutcome (convolution job disp inten (1 / 5) 100) := by
  unfold calculate Pool.results
  rw [List.range_eq_range']
  exact mapM_indices _ _ _ _ fun i hi => by
    rw [Nat.zero_add]
    exact outcome_done jobs disp inten caches hc schedule i hi (h i hi)

/-- **C99**: an exception of a job is raised, and of several the one of the first job, although later jobs may have failed earlier or
have been cancelled. -/
theorem C99_raises (caches : ℕ → MeshCache) (hc : ∀ w, Sound (caches w)) (schedule : List (ℕ × ℕ)) (k : ℕ)
    (job : Option ResoParams) (hk : jobs[k]? = some job) (e : PyErr) (he : e ≠ .nonFinite)
    (hf : convolution job disp inten (1 / 5) 100 = .error e)
    (hb : ∀ i < k, ∀ job', jobs[i]? = some job' → ∀ e', convolution job' disp inten (1 / 5) 100 = .error e' → e' = .nonFinite)
    (h : Complete schedule (k + 1)) : calculate caches schedule disp inten jobs = .error e := by
  obtain ⟨hlt, hjob⟩ := List.getElem?_eq_some_iff.1 hk
  unfold calculate Pool.results
  rw [List.range_eq_range']
  refine mapM_first_error _ e k _ 0 hlt (fun i hi => ?_) ?_
  · rw [Nat.zero_add, outcome_done jobs disp inten caches hc schedule i (by omega) (h i (by omega))]
    cases hr : convolution jobs[i] disp inten (1 / 5) 100 with
    | ok x => exact ⟨some x, rfl⟩
    | error e' =>
      obtain rfl := hb i hi _ (List.getElem?_eq_getElem (by omega)) e' hr
      exact ⟨none, rfl⟩
  · rw [Nat.zero_add, outcome_done jobs disp inten caches hc schedule k hlt (h k (by omega)), hjob, hf]
    cases e <;> first | rfl | exact absurd rfl he

/-- **C99**: for resolution matrices without widths above `10⁴` there is a number for every job that has resolution parameters, the
one of `convolution` (see C73), and nan for every other one; with any number of workers. -/
theorem C99_calculate (hB : 0 < B) (caches : ℕ → MeshCache) (hc : ∀ w, Sound (caches w)) (schedule : List (ℕ × ℕ))
    (h : Complete schedule jobs.length) (hg : ∀ p, some p ∈ jobs → GoodReso p.mat) :
    ∃ rs, calculate caches schedule disp inten jobs = .ok rs ∧
      List.Forall₂ (fun job r => (job = none → r = none) ∧
        ∀ p, job = some p → ∃ v, r = some v ∧ convolution (some p) disp inten (1 / 5) 100 = .ok v) jobs rs := by
  rw [C99_schedule jobs disp inten caches hc schedule h]
  clear h
  induction jobs with
  | nil => exact ⟨[], rfl, .nil⟩
  | cons job jobs ih =>
    obtain ⟨rs, h1, h2⟩ := ih fun p hp => hg p (List.mem_cons_of_mem _ hp)
    rw [List.mapM_cons, h1]
    cases job with
    | none => exact ⟨none :: rs, rfl, .cons ⟨fun _ => rfl, fun p hp => nomatch hp⟩ h2⟩
    | some p =>
      have hv : ∃ v, convolution (some p) disp inten (1 / 5) 100 = .ok v := by
        obtain ⟨c1, s, -, n, -, -, c2⟩ := C73_sum hB (hg p List.mem_cons_self) disp (rez := 1 / 5) (by norm_num) (maxStep := 100)
          (by norm_num)
        by_cases hn : Nothing p disp
        · exact ⟨_, c1 hn inten⟩
        · exact ⟨_, c2 hn inten⟩
      obtain ⟨v, hv⟩ := hv
      refine ⟨some v :: rs, by rw [hv]; rfl, .cons ⟨fun hp => (nomatch hp), fun p' hp' => ?_⟩ h2⟩
      cases hp'
      exact ⟨v, rfl, hv⟩

end

/-- **C99**: a model without bands raises `ValueError` for every job with resolution parameters. -/
theorem C99_no_bands {p : ResoParams} (hg : GoodReso p.mat) (disp inten : Fin 0 → V3 → ℝ) (rez : ℝ) (maxStep : ℕ) :
    convolution (some p) disp inten rez maxStep = .error .valueError := by
  obtain ⟨s1, s2, -⟩ := C25_convolution_sigmas hg.spd hg.small
  obtain ⟨z1, z2, z3⟩ := convProj_ok hg.spd hg.small 3
  rw [z1, py_bind_ok] at s2
  have hd := hg.spd.diag_pos 3
  have hsd := Real.sqrt_pos.2 hd
  have c1 : cohSigma p.mat 3 = .ok (1 / √(p.mat 3 3)) := by
    unfold cohSigma invSqrtAbs
    rw [abs_of_pos hd, pySqrt_ok hd.le, py_bind_ok, pyDiv_ok hsd.ne']
  have hq := qBlock_eq hg.spd
  have hv := elemVols_ok (qBlock_spd hg.spd)
  rw [← hq] at z1 s2
  unfold convolution
  rw [need_some, py_bind_ok, z1, py_bind_ok, s2, py_bind_ok, s1, py_bind_ok, c1, py_bind_ok, hv, py_bind_ok]
  rfl

/-! ## Concrete cases -/

/-- The second of three jobs raises; the third one was cancelled. -/
example (inten : Fin 0 → V3 → ℝ) : calculate (fun _ => []) [(0, 1), (1, 0)] inten inten [none, some ⟨0, 0, 1, 1⟩, none] =
    .error .valueError :=
  C99_raises _ _ _ _ (fun w s n mesh h => by cases h) _ 1 _ rfl _ (by decide)
    (C99_no_bands Demo.one_good _ _ _ _) (fun i hi job hj e he => by
      interval_cases i
      cases hj
      cases he
      rfl) (fun i hi => by
      interval_cases i
      · exact ⟨1, by simp⟩
      · exact ⟨0, by simp⟩)

open Demo in
/-- Three jobs, the last one finished first; two workers. -/
example : ∃ v, calculate (fun _ => []) [(1, 2), (0, 0), (1, 1)] flat ones [some ⟨0, 0, 1, 1⟩, none, some ⟨0, 0, 1, 1⟩] =
    .ok [some v, none, some v] := by
  obtain ⟨rs, h1, h2⟩ := C99_calculate [some ⟨0, 0, 1, 1⟩, none, some ⟨0, 0, 1, 1⟩] flat ones one_pos (fun _ => [])
    (fun w s n mesh h => by cases h) [(1, 2), (0, 0), (1, 1)] (fun i hi => by
      simp only [List.length_cons, List.length_nil] at hi
      interval_cases i
      · exact ⟨0, by simp⟩
      · exact ⟨1, by simp⟩
      · exact ⟨1, by simp⟩) (fun p hp => by
      have : p = ⟨0, 0, 1, 1⟩ := by simpa using hp
      rw [this]
      exact one_good)
  cases h2 with
  | cons a h2 => cases h2 with
    | cons b h2 => cases h2 with
      | cons c h2 =>
        cases h2
        obtain ⟨v, rfl, hv⟩ := a.2 _ rfl
        obtain rfl := b.1 rfl
        obtain ⟨v', rfl, hv'⟩ := c.2 _ rfl
        rw [hv] at hv'
        cases hv'
        exact ⟨v, h1⟩

end Tavi
