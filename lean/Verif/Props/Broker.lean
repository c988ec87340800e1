import Verif.Model.App
import Mathlib.Tactic.Linarith

/-! # C54: events -/

namespace Tavi

theorem Registry.add_prefix (r : Registry) (type c t : ℕ) : r t <+: r.add type c t := by
  rw [Registry.add]
  split
  · exact ⟨[c], rfl⟩
  · exact List.prefix_refl _

/-- The calls a publication at depth `d` makes itself (not those made by what it calls). -/
def Spec.direct (d : ℕ) (log : List EvCall) : List EvCall := log.filter fun c => c.depth = d

/-- Registries only grow, at the end, and calls are never shallower than where they are made. -/
theorem exec_grows {beh : ℕ → Ev → List Act} {d : ℕ} {r r' : Registry} {t : Task} {log : List EvCall}
    (h : Exec beh d r t r' log) : (∀ ty, r ty <+: r' ty) ∧ ∀ c ∈ log, d ≤ c.depth := by
  induction h with
  | nil d r => exact ⟨fun _ => List.prefix_refl _, by simp⟩
  | reg d r type c acts r' log _ ih => exact ⟨fun ty => (r.add_prefix type c ty).trans (ih.1 ty), ih.2⟩
  | pub d r ev acts r1 r2 log1 log2 _ _ ih1 ih2 =>
    refine ⟨fun ty => (ih1.1 ty).trans (ih2.1 ty), fun c hc => ?_⟩
    rcases List.mem_append.1 hc with h | h
    · exact ih1.2 c h
    · exact ih2.2 c h
  | done d r ev i _ => exact ⟨fun _ => List.prefix_refl _, by simp⟩
  | step d r ev i c r1 r2 log1 log2 _ _ _ ih1 ih2 =>
    refine ⟨fun ty => (ih1.1 ty).trans (ih2.1 ty), fun c' hc => ?_⟩
    rcases List.mem_append.1 hc with h | h
    · rcases List.mem_cons.1 h with rfl | h
      · exact le_refl _
      · have := ih1.2 c' h; omega
    · exact ih2.2 c' h

theorem direct_loop {beh : ℕ → Ev → List Act} {d : ℕ} {r r' : Registry} {ev : Ev} {i : ℕ} {log : List EvCall}
    (h : Exec beh d r (.loop ev i) r' log) : Spec.direct d log = ((r' ev.type).drop i).map fun c => ⟨d, c, ev⟩ := by
  generalize ht : Task.loop ev i = t at h
  induction h generalizing i with
  | nil d r => cases ht
  | reg d r type c acts r' log _ ih => cases ht
  | pub d r ev acts r1 r2 log1 log2 _ _ ih1 ih2 => cases ht
  | done d r ev i hnone =>
    cases ht
    rw [List.drop_eq_nil_of_le (List.getElem?_eq_none_iff.1 hnone)]; rfl
  | step d r ev i c r1 r2 log1 log2 hc h1 h2 ih1 ih2 =>
    cases ht
    have g1 := exec_grows h1
    have g2 := exec_grows h2
    have hc' : (r2 ev.type)[i]? = some c := by
      obtain ⟨t, ht⟩ := (g1.1 ev.type).trans (g2.1 ev.type)
      rw [← ht, List.getElem?_append_left (List.getElem?_eq_some_iff.1 hc).1, hc]
    have hd : (r2 ev.type).drop i = c :: (r2 ev.type).drop (i + 1) := by
      obtain ⟨hi, rfl⟩ := List.getElem?_eq_some_iff.1 hc'
      exact List.drop_eq_getElem_cons hi
    rw [hd, List.map_cons, ← ih2 rfl]
    unfold Spec.direct
    rw [List.filter_append, List.filter_cons_of_pos (by simp)]
    have : log1.filter (fun c => decide (c.depth = d)) = [] := by
      rw [List.filter_eq_nil_iff]
      intro c' hc'
      have := g1.2 c' hc'
      simp; omega
    rw [this]; rfl

/-- **C54**, whatever the callables do: a publication that comes to its end has itself called exactly the callables that are
registered for the type of the event when it ends, once per registration, in the order of registration, with the event. What
was registered before stays registered, in front. -/
theorem C54_nested (beh : ℕ → Ev → List Act) (d : ℕ) (r r' : Registry) (ev : Ev) (log : List EvCall)
    (h : Exec beh d r (.loop ev 0) r' log) :
    Spec.direct d log = (r' ev.type).map (fun c => ⟨d, c, ev⟩) ∧ ∀ ty, r ty <+: r' ty := by
  refine ⟨by rw [direct_loop h, List.drop_zero], (exec_grows h).1⟩

/-- Callables that register nothing. -/
def Spec.Quiet (beh : ℕ → Ev → List Act) : Prop := ∀ c ev, ∀ a ∈ beh c ev, ∀ ty c', a ≠ .register ty c'

theorem quiet_same {beh : ℕ → Ev → List Act} (hq : Spec.Quiet beh) {d : ℕ} {r r' : Registry} {t : Task} {log : List EvCall}
    (h : Exec beh d r t r' log) (ht : ∀ acts, t = .body acts → ∀ a ∈ acts, ∀ ty c', a ≠ .register ty c') : r' = r := by
  induction h with
  | nil d r => rfl
  | reg d r type c acts r' log _ ih => exact absurd rfl (ht _ rfl _ List.mem_cons_self type c)
  | pub d r ev acts r1 r2 log1 log2 _ _ ih1 ih2 =>
    rw [ih2 (fun acts' h a ha => by
      obtain rfl := Task.body.inj h
      exact ht _ rfl a (List.mem_cons_of_mem _ ha)), ih1 (fun _ h => by cases h)]
  | done d r ev i _ => rfl
  | step d r ev i c r1 r2 log1 log2 _ _ _ ih1 ih2 =>
    rw [ih2 (fun _ h => by cases h), ih1 (fun acts' h => by obtain rfl := Task.body.inj h; exact hq c ev)]

/-- A history of operations, with the calls made by each. -/
inductive BrokerRun (beh : ℕ → Ev → List Act) : BrokerWorld × List ℕ → List (BrokerOp × List EvCall) → BrokerWorld × List ℕ → Prop
  | nil (s) : BrokerRun beh s [] s
  | snoc (s s' s'' ops op log) : BrokerRun beh s ops s' → BrokerStep beh s' op s'' log → BrokerRun beh s (ops ++ [(op, log)]) s''

/-- The callables registered for a type in a history, through any handle. -/
def Spec.registered (ops : List BrokerOp) (ty : ℕ) : List ℕ :=
  ops.filterMap fun op => match op with
    | .register _ ty' c => if ty' = ty then some c else none
    | _ => none

theorem registered_snoc (ops : List BrokerOp) (op : BrokerOp) (ty : ℕ) :
    Spec.registered (ops ++ [op]) ty = Spec.registered ops ty ++ Spec.registered [op] ty := by
  rw [Spec.registered, List.filterMap_append]; rfl

/-- The world before the first broker is made. -/
def BrokerWorld.start : BrokerWorld × List ℕ := (⟨none, []⟩, [])

theorem broker_inv {beh : ℕ → Ev → List Act} (hq : Spec.Quiet beh) {ops : List (BrokerOp × List EvCall)}
    {s s0 : BrokerWorld × List ℕ} (hs0 : s0 = BrokerWorld.start)
    (h : BrokerRun beh s0 ops s) :
    (s = BrokerWorld.start ∧ ∀ ty, Spec.registered (ops.map Prod.fst) ty = []) ∨
    (s.1 = ⟨some 0, [some (Spec.registered (ops.map Prod.fst))]⟩ ∧ ∀ h ∈ s.2, h = 0) := by
  induction h with
  | nil => exact .inl ⟨hs0, fun _ => rfl⟩
  | snoc s' s'' ops op log _ hstep ih =>
    rw [List.map_append, List.map_cons, List.map_nil]
    have inv := ih
    clear ih
    dsimp only
    cases hstep with
    | construct w hs =>
      right
      rcases inv with ⟨h1, h2⟩ | ⟨h1, h2⟩
      · obtain ⟨rfl, rfl⟩ := Prod.mk.inj h1
        refine ⟨?_, by simp [BrokerWorld.construct]⟩
        have : Spec.registered (ops.map Prod.fst ++ [BrokerOp.construct]) = fun _ => [] := by
          funext ty; rw [registered_snoc, h2]; rfl
        rw [this]; rfl
      · dsimp only at h1 h2
        subst h1
        refine ⟨?_, ?_⟩
        · have : Spec.registered (ops.map Prod.fst ++ [BrokerOp.construct]) = Spec.registered (ops.map Prod.fst) := by
            funext ty; rw [registered_snoc]; exact List.append_nil _
          rw [this]; rfl
        · intro h hh
          rcases List.mem_append.1 hh with hh | hh
          · exact h2 h hh
          · simpa [BrokerWorld.construct] using hh
    | register w hs i h reg type c hi ho =>
      right
      rcases inv with ⟨h1, h2⟩ | ⟨h1, h2⟩
      · obtain ⟨rfl, rfl⟩ := Prod.mk.inj h1
        simp at hi
      · dsimp only at h1 h2
        subst h1
        obtain rfl := h2 h (List.mem_of_getElem? hi)
        have ho' : Spec.registered (ops.map Prod.fst) = reg := Option.some.inj (Option.some.inj ho)
        refine ⟨?_, h2⟩
        have : Spec.registered (ops.map Prod.fst ++ [BrokerOp.register i type c]) = reg.add type c := by
          funext ty
          rw [registered_snoc, ho', Registry.add]
          by_cases hty : ty = type
          · rw [if_pos hty]; simp [Spec.registered, hty]
          · rw [if_neg hty]; simp [Spec.registered, Ne.symm hty]
        rw [this]; rfl
    | publish w hs i h reg ev reg' log hi ho hex =>
      right
      rcases inv with ⟨h1, h2⟩ | ⟨h1, h2⟩
      · obtain ⟨rfl, rfl⟩ := Prod.mk.inj h1
        simp at hi
      · dsimp only at h1 h2
        subst h1
        obtain rfl := h2 h (List.mem_of_getElem? hi)
        have ho' : Spec.registered (ops.map Prod.fst) = reg := Option.some.inj (Option.some.inj ho)
        refine ⟨?_, h2⟩
        have : Spec.registered (ops.map Prod.fst ++ [BrokerOp.publish i ev]) = reg' := by
          rw [quiet_same hq hex (fun _ h => by cases h), ← ho']
          funext ty
          rw [registered_snoc]; exact List.append_nil _
        rw [this]; rfl

/-- **C54**: after any history of constructions, registrations and publications through any handles, publishing an event
calls exactly the callables registered for its type so far, once per registration, in order, with the event. (The callables may
publish further events but register nothing while they run; see `C54_nested` for those that do.) -/
theorem C54_history (beh : ℕ → Ev → List Act) (hq : Spec.Quiet beh) (ops : List (BrokerOp × List EvCall))
    (s s' : BrokerWorld × List ℕ) (h : BrokerRun beh BrokerWorld.start ops s) (i : ℕ) (ev : Ev) (log : List EvCall)
    (hp : BrokerStep beh s (.publish i ev) s' log) :
    Spec.direct 0 log = (Spec.registered (ops.map Prod.fst) ev.type).map fun c => ⟨0, c, ev⟩ := by
  have inv := broker_inv hq rfl h
  clear h
  cases hp with
  | publish w hs i h reg ev reg' log hi ho hex =>
    rcases inv with ⟨h1, h2⟩ | ⟨h1, h2⟩
    · obtain ⟨rfl, rfl⟩ := Prod.mk.inj h1
      simp at hi
    · dsimp only at h1 h2
      subst h1
      obtain rfl := h2 h (List.mem_of_getElem? hi)
      have ho' : Spec.registered (ops.map Prod.fst) = reg := Option.some.inj (Option.some.inj ho)
      rw [(C54_nested _ _ _ _ _ _ hex).1, quiet_same hq hex (fun _ h => by cases h), ho']

/-- **C54**: registering and publishing never fail once a broker has been made, and publishing ends if the callables do not use
the broker. -/
theorem C54_possible (beh : ℕ → Ev → List Act) (hb : ∀ c ev, beh c ev = []) (ops : List (BrokerOp × List EvCall))
    (s : BrokerWorld × List ℕ) (h : BrokerRun beh BrokerWorld.start ops s) (i : ℕ) (hi : i < s.2.length) :
    (∀ ty c, ∃ s', BrokerStep beh s (.register i ty c) s' []) ∧ ∀ ev, ∃ s' log, BrokerStep beh s (.publish i ev) s' log := by
  have inv := broker_inv (fun c ev a ha => by rw [hb] at ha; simp at ha) rfl h
  rcases inv with ⟨rfl, h2⟩ | ⟨h1, h2⟩
  · simp [BrokerWorld.start] at hi
  · obtain ⟨w, hs⟩ := s
    dsimp only at h1 h2 hi
    subst h1
    have hh : hs[i]? = some 0 := by
      rw [List.getElem?_eq_getElem hi]
      exact congrArg some (h2 _ (List.getElem_mem hi))
    refine ⟨fun ty c => ⟨_, .register _ _ _ _ _ _ _ hh rfl⟩, fun ev => ?_⟩
    have : ∀ (r : Registry) (n k : ℕ), (r ev.type).length = k + n → ∃ log, Exec beh 0 r (.loop ev k) r log := by
      intro r n
      induction n with
      | zero => intro k hk; exact ⟨[], .done _ _ _ _ (List.getElem?_eq_none_iff.2 (by omega))⟩
      | succ n ih =>
        intro k hk
        obtain ⟨log, hl⟩ := ih (k + 1) (by omega)
        refine ⟨_, .step 0 r ev k _ r r [] log (List.getElem?_eq_getElem (by omega)) ?_ hl⟩
        rw [hb]; exact .nil _ _
    obtain ⟨log, hl⟩ := this (Spec.registered (ops.map Prod.fst)) _ 0 (by rw [Nat.zero_add])
    exact ⟨_, log, .publish _ _ _ _ _ _ _ _ hh rfl hl⟩

/-- **C54**: every handle is the same broker. -/
theorem C54_one_broker (beh : ℕ → Ev → List Act) (hq : Spec.Quiet beh) (ops : List (BrokerOp × List EvCall))
    (s : BrokerWorld × List ℕ) (h : BrokerRun beh BrokerWorld.start ops s) (a b : ℕ) (ha : a ∈ s.2) (hb : b ∈ s.2) : a = b := by
  rcases broker_inv hq rfl h with ⟨rfl, h2⟩ | ⟨h1, h2⟩
  · simp [BrokerWorld.start] at ha
  · rw [h2 a ha, h2 b hb]

/-! ## Concrete case -/

namespace Demo

/-- Callable 7 publishes another event, all others do nothing. -/
def beh7 : ℕ → Ev → List Act := fun c _ => if c = 7 then [.publish ⟨2, []⟩] else []

theorem beh7_run (r : Registry) (h1 : r 1 = [7, 8]) (h2 : r 2 = [9]) :
    Exec beh7 0 r (.loop ⟨1, []⟩ 0) r [⟨0, 7, ⟨1, []⟩⟩, ⟨1, 9, ⟨2, []⟩⟩, ⟨0, 8, ⟨1, []⟩⟩] := by
  refine .step _ _ _ _ 7 r _ [⟨1, 9, ⟨2, []⟩⟩] [⟨0, 8, ⟨1, []⟩⟩] (by rw [h1]; rfl) ?_
    (.step _ _ _ _ 8 r _ [] [] (by rw [h1]; rfl) (.nil _ _) (.done _ _ _ _ (by rw [h1]; rfl)))
  exact .pub _ _ _ _ r _ [⟨1, 9, ⟨2, []⟩⟩] [] (.step _ _ _ _ 9 r _ [] [] (by rw [h2]; rfl) (.nil _ _)
    (.done _ _ _ _ (by rw [h2]; rfl))) (.nil _ _)

/-- Two handles; 7 and 8 for type 1, 9 for type 2; publishing a type-1 event calls 7, then (nested) 9, then 8. -/
example : ∃ s, BrokerRun beh7 BrokerWorld.start
    [(.construct, []), (.register 0 1 7, []), (.construct, []), (.register 1 2 9, []), (.register 1 1 8, []),
     (.publish 0 ⟨1, []⟩, [⟨0, 7, ⟨1, []⟩⟩, ⟨1, 9, ⟨2, []⟩⟩, ⟨0, 8, ⟨1, []⟩⟩])] s :=
  ⟨_, .snoc _ _ _ [_, _, _, _, _] _ _ (.snoc _ _ _ [_, _, _, _] _ _ (.snoc _ _ _ [_, _, _] _ _ (.snoc _ _ _ [_, _] _ _
    (.snoc _ _ _ [_] _ _ (.snoc _ _ _ [] _ _ (.nil _) (.construct _ _)) (.register _ _ 0 0 _ 1 7 rfl rfl))
    (.construct _ _)) (.register _ _ 1 0 _ 2 9 rfl rfl)) (.register _ _ 1 0 _ 1 8 rfl rfl))
    (.publish _ _ 0 0 _ ⟨1, []⟩ _ _ rfl rfl (beh7_run _ rfl rfl))⟩

end Demo

end Tavi
